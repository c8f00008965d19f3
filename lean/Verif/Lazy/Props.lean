import Verif.Lazy.Lemmas
/-!
# Iterations that are consumed step by step (C104)
-/
namespace Osp.Lazy
open Osp.Sess
open Osp.Multi (J Tidy Trace)

/-! ### one `next` -/

theorem inEngine_user {α : Type} {s : St} (hc : s.ctx = .user) (f : St → Res α) :
    s.inEngine f = ((f { s with engine := .empty, ctx := .engine }).1, { (f { s with engine := .empty, ctx := .engine }).2 with ctx := .user }) := by
  unfold St.inEngine
  simp only [hc, ne_eq, reduceCtorEq, not_false_eq_true, if_true]

/-- Proof device; nothing in /repo: what `missing_uids` is when the iteration begins. -/
def missingAt (s : St) (uids : List Uid) : List Uid := uids.filter (fun u => u ∉ s.reg ∨ u ∈ uids.filter (· ∈ s.expired))

theorem mem_missingAt {s : St} {uids : List Uid} {u : Uid} : u ∈ missingAt s uids ↔ u ∈ uids ∧ Absent s u := by
  unfold missingAt Absent
  simp only [List.mem_filter, decide_eq_true_eq]
  tauto

/-- Proof device; nothing in /repo: the session after the beginning of an iteration. -/
def begun (s : St) (uids : List Uid) : St := { s with expired := s.expired.filter (· ∉ uids.filter (· ∈ s.expired)) }

theorem next_fresh {P : Params} {s : St} (hroot : s.root ≠ none) (uids : List Uid) :
    next P s ⟨uids, .fresh⟩ = next P (begun s uids) ⟨uids, .running (missingAt s uids) uids⟩ := by
  have h : s.inEngine (resume P ⟨uids, .fresh⟩) = (begun s uids).inEngine (resume P ⟨uids, .running (missingAt s uids) uids⟩) := by
    unfold St.inEngine resume
    dsimp only
    have hr1 : ({ (if s.ctx ≠ .engine then { s with engine := Buf.empty } else s) with ctx := Ctx.engine } : St).root ≠ none := by split <;> exact hroot
    rw [if_neg hr1]
    cases hc : s.ctx <;> simp [begun, missingAt, hc]
  unfold next
  rw [h]

theorem next_fresh_none {P : Params} {s : St} (hc : s.ctx = .user) (hroot : s.root = none) (uids : List Uid) :
    next P s ⟨uids, .fresh⟩ = ⟨.error .runtimeError, { s with engine := .empty }, ⟨uids, .done⟩⟩ := by
  have h : s.inEngine (resume P ⟨uids, .fresh⟩) = (.error .runtimeError, { s with engine := .empty }) := by
    rw [inEngine_user hc]
    unfold resume
    dsimp only
    rw [if_pos hroot, ← hc]
  unfold next
  rw [h]

theorem next_done {P : Params} {s : St} (hc : s.ctx = .user) (uids : List Uid) : next P s ⟨uids, .done⟩ = ⟨.ok none, { s with engine := .empty }, ⟨uids, .done⟩⟩ := by
  have h : s.inEngine (resume P ⟨uids, .done⟩) = (.ok (none, .done), { s with engine := .empty }) := by
    rw [inEngine_user hc, ← hc]
    rfl
  unfold next
  rw [h]

theorem next_end {P : Params} {s : St} (hc : s.ctx = .user) (uids missing : List Uid) :
    next P s ⟨uids, .running missing []⟩ = ⟨.ok none, { s with engine := .empty }, ⟨uids, .done⟩⟩ := by
  have h : s.inEngine (resume P ⟨uids, .running missing []⟩) = (.ok (none, .done), { s with engine := .empty }) := by
    rw [inEngine_user hc, ← hc]
    rfl
  unfold next
  rw [h]

/-- A `next` on an iteration that stands before an object. -/
theorem next_cons {P : Params} (s : St) (uids missing : List Uid) (u : Uid) (left : List Uid) :
    next P s ⟨uids, .running missing (u :: left)⟩ = match s.inEngine (St.loadStep P uids missing u) with
      | (.ok x, s') => ⟨.ok (some x), s', ⟨uids, .running missing left⟩⟩
      | (.error e, s') => ⟨.error e, s', ⟨uids, .done⟩⟩ := by
  unfold next
  have : ∀ t : St, resume P ⟨uids, .running missing (u :: left)⟩ t = match St.loadStep P uids missing u t with
      | (.error e, t') => (.error e, t')
      | (.ok x, t') => (.ok (some x, .running missing left), t') := fun _ => rfl
  unfold St.inEngine
  dsimp only
  rw [this]
  generalize St.loadStep P uids missing u _ = r
  obtain ⟨r1, r2⟩ := r
  cases r1 <;> rfl

/-- An object that has to be reloaded. -/
theorem next_missing {P : Params} {s : St} (h : JT s) (hroot : s.root ≠ none) (uids missing : List Uid) {u : Uid} (left : List Uid) (hm : u ∈ missing) :
    ∃ s', next P s ⟨uids, .running missing (u :: left)⟩ = ⟨.ok (some (if s.stored u ≠ ∅ then some u else none)), s', ⟨uids, .running missing left⟩⟩ ∧ JT s' ∧ s'.user = s.user ∧ s'.db = s.db ∧ s'.root = s.root ∧
      (u ∈ s'.reg ↔ s.stored u ≠ ∅) ∧ s'.g u = s.stored u ∧ ∀ v, v ≠ u → (v ∈ s'.reg ↔ v ∈ s.reg) ∧ s'.g v = s.g v := by
  obtain ⟨s1, b1, b2, b3, b4, b5, b6, b7, b8, b9⟩ := Multi.loadStep_weak (P := P) (s := { s with engine := .empty, ctx := .engine }) hroot h.tidy rfl rfl uids missing hm
  refine ⟨{ s1 with ctx := .user }, ?_, h.of rfl b6 b4 hroot b2, b2, b3, b4, b7, b8, fun v hv => ⟨(b9 v hv).1, (b9 v hv).2.1⟩⟩
  rw [next_cons, inEngine_user h.ctx, b1]
  rfl

/-- An object that is not reloaded. -/
theorem next_present {P : Params} {s : St} (h : JT s) (uids missing : List Uid) {u : Uid} (left : List Uid) (hm : u ∉ missing) :
    next P s ⟨uids, .running missing (u :: left)⟩ =
      if u ∈ s.reg then ⟨.ok (some (some u)), { s with engine := .empty }, ⟨uids, .running missing left⟩⟩ else ⟨.error .keyError, { s with engine := .empty }, ⟨uids, .done⟩⟩ := by
  rw [next_cons, inEngine_user h.ctx]
  unfold St.loadStep
  rw [if_pos hm]
  dsimp only
  by_cases hr : u ∈ s.reg
  · rw [if_pos hr, if_pos hr, ← h.ctx]
  · rw [if_neg hr, if_neg hr, ← h.ctx]

theorem jt_engine {s : St} (h : JT s) (b : Buf) : JT { s with engine := b } := ⟨h.ctx, h.tidy, h.closed, h.zero, fun _ _ _ _ => trivial⟩

theorem jt_begun {s : St} (h : JT s) (uids : List Uid) : JT (begun s uids) :=
  ⟨h.ctx, h.tidy, fun k => ⟨(h.closed k).1, by unfold begun; rw [(h.closed k).2]; rfl⟩, h.zero, fun _ _ _ _ => trivial⟩

/-- Proof device; nothing in /repo: what one `next` can do at all. -/
theorem next_all {P : Params} {s : St} (h : JT s) (g : Gen) (hg : ∀ m l, g.phase = .running m l → s.root ≠ none) :
    JT (next P s g).s ∧ (next P s g).s.user = s.user ∧ (next P s g).s.db = s.db ∧ (next P s g).s.root = s.root ∧ (next P s g).g.uids = g.uids ∧ (next P s g).g.phase ≠ .fresh ∧
      (∀ m l, (next P s g).g.phase = .running m l → s.root ≠ none) := by
  have hr : ∀ (s : St) (uids m l : List Uid), JT s → s.root ≠ none → JT (next P s ⟨uids, .running m l⟩).s ∧ (next P s ⟨uids, .running m l⟩).s.user = s.user ∧ (next P s ⟨uids, .running m l⟩).s.db = s.db ∧
      (next P s ⟨uids, .running m l⟩).s.root = s.root ∧ (next P s ⟨uids, .running m l⟩).g.uids = uids ∧ (next P s ⟨uids, .running m l⟩).g.phase ≠ .fresh := by
    intro s uids m l h hroot
    cases l with
    | nil =>
      rw [next_end h.ctx]
      exact ⟨jt_engine h _, rfl, rfl, rfl, rfl, by simp⟩
    | cons u left =>
      by_cases hm : u ∈ m
      · obtain ⟨s', a1, a2, a3, a4, a5, _⟩ := next_missing (P := P) h hroot uids m left hm
        rw [a1]
        exact ⟨a2, a3, a4, a5, rfl, by simp⟩
      · rw [next_present h uids m left hm]
        split <;> exact ⟨jt_engine h _, rfl, rfl, rfl, rfl, by simp⟩
  obtain ⟨uids, phase⟩ := g
  cases phase with
  | fresh =>
    by_cases hroot : s.root = none
    · rw [next_fresh_none h.ctx hroot]
      exact ⟨jt_engine h _, rfl, rfl, rfl, rfl, by simp, fun m l k => by simp at k⟩
    · rw [next_fresh hroot]
      obtain ⟨a1, a2, a3, a4, a5, a6⟩ := hr (begun s uids) uids (missingAt s uids) uids (jt_begun h uids) hroot
      exact ⟨a1, a2, a3, a4, a5, a6, fun _ _ _ => hroot⟩
  | running m l =>
    obtain ⟨a1, a2, a3, a4, a5, a6⟩ := hr s uids m l h (hg m l rfl)
    exact ⟨a1, a2, a3, a4, a5, a6, fun _ _ _ => hg m l rfl⟩
  | done =>
    rw [next_done h.ctx]
    exact ⟨jt_engine h _, rfl, rfl, rfl, rfl, by simp, fun m l k => by simp at k⟩

/-! ### histories -/

/-- Proof device; nothing in /repo: what holds after every history. -/
structure I (y : Sys) : Prop where
  jt : JT y.s
  rooted : ∀ i m l, (y.gens i).phase = .running m l → y.s.root ≠ none
  out : ∀ i, y.count ≤ i → (y.gens i).phase = .done

theorem I.start (db : Uid → Content) : I (.start db) := ⟨J.opened _ db, fun i m l k => by simp [Sys.start] at k, fun _ _ => rfl⟩

theorem I.step {P : Params} {y : Sys} (h : I y) {e : Event} (hp : Proper e) : I (y.step P e) := by
  cases e with
  | call o => exact ⟨step_JT h.jt hp, fun i m l k => by rw [show (y.step P (.call o)).s.root = y.s.root from (step_user h.jt o).1 (h.rooted i m l k)]; exact h.rooted i m l k, h.out⟩
  | opens uids =>
    refine ⟨h.jt, fun i m l k => ?_, fun i hi => ?_⟩
    · have k' : (Function.update y.gens y.count ⟨uids, .fresh⟩ i).phase = .running m l := k
      by_cases hi : i = y.count
      · subst hi; rw [Function.update_self] at k'; simp at k'
      · rw [Function.update_of_ne hi] at k'; exact h.rooted i m l k'
    · have hi' : y.count + 1 ≤ i := hi
      show (Function.update y.gens y.count ⟨uids, .fresh⟩ i).phase = .done
      rw [Function.update_of_ne (by omega)]
      exact h.out i (by omega)
  | next j =>
    obtain ⟨a1, a2, a3, a4, a5, a6, a7⟩ := next_all (P := P) h.jt (y.gens j) (h.rooted j)
    refine ⟨a1, fun i m l k => ?_, fun i hi => ?_⟩
    · show (Lazy.next P y.s (y.gens j)).s.root ≠ none
      rw [a4]
      have k' : (Function.update y.gens j (Lazy.next P y.s (y.gens j)).g i).phase = .running m l := k
      by_cases hi : i = j
      · subst hi; rw [Function.update_self] at k'; exact a7 m l k'
      · rw [Function.update_of_ne hi] at k'; exact h.rooted i m l k'
    · show (Function.update y.gens j (Lazy.next P y.s (y.gens j)).g i).phase = .done
      have hd := h.out i hi
      by_cases hij : i = j
      · subst hij
        rw [Function.update_self]
        have : y.gens i = ⟨(y.gens i).uids, .done⟩ := by rw [← hd]
        rw [this, next_done h.jt.ctx]
      · rw [Function.update_of_ne hij]; exact hd

theorem I.hist {P : Params} : ∀ (h : List Event) {y : Sys}, I y → (∀ e ∈ h, Proper e) → I (run P y h)
  | [], _, hy, _ => hy
  | e :: h, _, hy, hp => I.hist h (hy.step (hp e List.mem_cons_self)) (fun e' he => hp e' (List.mem_cons_of_mem _ he))

theorem run_append (P : Params) : ∀ (h k : List Event) (y : Sys), run P y (h ++ k) = run P (run P y h) k
  | [], _, _ => rfl
  | e :: h, k, y => run_append P h k (y.step P e)

/-- Specification: how often iteration `i` was asked for its next object. -/
def turns (i : Nat) : List Event → Nat
  | [] => 0
  | .next j :: h => (if j = i then 1 else 0) + turns i h
  | _ :: h => turns i h

/-- Where an iteration stands after it has begun. -/
theorem stands {P : Params} (i : Nat) (uids m : List Uid) : ∀ (h : List Event) {y : Sys} (k : Nat), I y → (∀ e ∈ h, Proper e) → (y.gens i).uids = uids →
    ((y.gens i).phase = .done ∨ ((y.gens i).phase = .running m (uids.drop k) ∧ k ≤ uids.length)) →
    ((run P y h).gens i).uids = uids ∧ (((run P y h).gens i).phase = .done ∨ (((run P y h).gens i).phase = .running m (uids.drop (k + turns i h)) ∧ k + turns i h ≤ uids.length)) ∨ ((y.gens i).phase = .done ∧ y.count ≤ i)
  | [], y, k, _, _, hu, hph => by
    left
    exact ⟨hu, by simpa [run, turns] using hph⟩
  | e :: h, y, k, hI, hp, hu, hph => by
    by_cases hout : y.count ≤ i
    · right; exact ⟨hI.out i hout, hout⟩
    left
    have hI' := hI.step (P := P) (hp e List.mem_cons_self)
    have hp' : ∀ e' ∈ h, Proper e' := fun e' he => hp e' (List.mem_cons_of_mem _ he)
    have fin : ∀ k', k' + turns i h = k + turns i (e :: h) → (y.step P e).count = y.count ∨ (y.step P e).count = y.count + 1 → ((y.step P e).gens i).uids = uids →
        (((y.step P e).gens i).phase = .done ∨ (((y.step P e).gens i).phase = .running m (uids.drop k') ∧ k' ≤ uids.length)) →
        ((run P y (e :: h)).gens i).uids = uids ∧ (((run P y (e :: h)).gens i).phase = .done ∨
          (((run P y (e :: h)).gens i).phase = .running m (uids.drop (k + turns i (e :: h))) ∧ k + turns i (e :: h) ≤ uids.length)) := by
      intro k' hk' hcnt h1 h2
      rcases stands (P := P) i uids m h k' hI' hp' h1 h2 with h3 | ⟨_, h4⟩
      · rw [hk'] at h3; exact h3
      · rcases hcnt with hc | hc <;> rw [hc] at h4 <;> omega
    cases e with
    | call o => exact fin k rfl (Or.inl rfl) hu hph
    | opens us =>
      have hne : i ≠ y.count := by omega
      have hg : (y.step P (.opens us)).gens i = y.gens i := by
        show Function.update y.gens y.count _ i = _
        rw [Function.update_of_ne hne]
      exact fin k rfl (Or.inr rfl) (by rw [hg]; exact hu) (by rw [hg]; exact hph)
    | next j =>
      by_cases hji : j = i
      · subst hji
        have hg : (y.step P (.next j)).gens j = (Lazy.next P y.s (y.gens j)).g := by
          show Function.update y.gens j _ j = _
          rw [Function.update_self]
        refine fin (k + 1) (by simp only [turns, if_true]; omega) (Or.inl rfl) (by rw [hg, (next_all hI.jt _ (hI.rooted j)).2.2.2.2.1]; exact hu) ?_
        rw [hg]
        rcases hph with hd | ⟨hph, hk⟩
        · left
          have : y.gens j = ⟨(y.gens j).uids, .done⟩ := by rw [← hd]
          rw [this, next_done hI.jt.ctx]
        · have hgj : y.gens j = ⟨uids, .running m (uids.drop k)⟩ := by rw [← hph, ← hu]
          rw [hgj]
          have hroot := hI.rooted j _ _ hph
          by_cases hlt : k < uids.length
          · rw [List.drop_eq_getElem_cons hlt]
            by_cases hm : uids[k] ∈ m
            · obtain ⟨s', a1, _⟩ := next_missing (P := P) hI.jt hroot uids m (uids.drop (k + 1)) hm
              rw [a1]
              exact Or.inr ⟨rfl, hlt⟩
            · rw [next_present hI.jt uids m (uids.drop (k + 1)) hm]
              split
              · exact Or.inr ⟨rfl, hlt⟩
              · exact Or.inl rfl
          · rw [List.drop_eq_nil_of_le (by omega), next_end hI.jt.ctx]
            exact Or.inl rfl
      · have hg : (y.step P (.next j)).gens i = y.gens i := by
          show Function.update y.gens j _ i = _
          rw [Function.update_of_ne (Ne.symm hji)]
        exact fin k (by simp only [turns, if_neg hji]; omega) (Or.inl rfl) (by rw [hg]; exact hu) (by rw [hg]; exact hph)

/-- Proof device; nothing in /repo: the same system after the local variables of the iteration were computed. -/
def beginAt (y : Sys) (i : Nat) (uids : List Uid) : Sys :=
  { y with s := begun y.s uids, gens := Function.update y.gens i ⟨uids, .running (missingAt y.s uids) uids⟩ }

theorem step_beginAt {P : Params} {y : Sys} {i : Nat} {uids : List Uid} (hf : y.gens i = ⟨uids, .fresh⟩) (hroot : y.s.root ≠ none) : (beginAt y i uids).step P (.next i) = y.step P (.next i) := by
  have h1 : (beginAt y i uids).gens i = ⟨uids, .running (missingAt y.s uids) uids⟩ := by
    show Function.update y.gens i _ i = _
    rw [Function.update_self]
  have h2 : Lazy.next P (beginAt y i uids).s ((beginAt y i uids).gens i) = Lazy.next P y.s (y.gens i) := by
    rw [h1, hf, next_fresh hroot]
    rfl
  unfold Sys.step
  dsimp only
  rw [h2]
  unfold beginAt
  simp

theorem I.beginAt {y : Sys} (h : I y) {i : Nat} {uids : List Uid} (hf : y.gens i = ⟨uids, .fresh⟩) (hroot : y.s.root ≠ none) : I (beginAt y i uids) := by
  refine ⟨jt_begun h.jt uids, fun _ _ _ _ => hroot, fun j hj => ?_⟩
  have hji : j ≠ i := by
    rintro rfl
    have := h.out j hj
    rw [hf] at this
    simp at this
  show (Function.update y.gens i _ j).phase = .done
  rw [Function.update_of_ne hji]
  exact h.out j hj

/-- Proof device; nothing in /repo: where an iteration stands that began in `y0`. -/
theorem standing {P : Params} {y0 : Sys} (hI : I y0) {i : Nat} {uids : List Uid} (hf : y0.gens i = ⟨uids, .fresh⟩) (hroot : y0.s.root ≠ none) {h : List Event} (hp : ∀ e ∈ h, Proper e)
    (hb : h = [] ∨ ∃ b, h = .next i :: b) (hnd : ((run P y0 h).gens i).phase ≠ .done) :
    ∃ s, JT s ∧ s.root ≠ none ∧ s.root = (run P y0 h).s.root ∧ s.reg = (run P y0 h).s.reg ∧ s.g = (run P y0 h).s.g ∧ s.user = (run P y0 h).s.user ∧ s.db = (run P y0 h).s.db ∧
      Lazy.next P (run P y0 h).s ((run P y0 h).gens i) = Lazy.next P s ⟨uids, .running (missingAt y0.s uids) (uids.drop (turns i h))⟩ := by
  rcases hb with rfl | ⟨b, rfl⟩
  · refine ⟨begun y0.s uids, jt_begun hI.jt uids, hroot, rfl, rfl, rfl, rfl, rfl, ?_⟩
    show Lazy.next P y0.s (y0.gens i) = _
    rw [hf, next_fresh hroot]
    rfl
  · have hB := hI.beginAt hf hroot
    have hrun : run P y0 (.next i :: b) = run P (Lazy.beginAt y0 i uids) (.next i :: b) := by
      show run P (y0.step P (.next i)) b = run P ((Lazy.beginAt y0 i uids).step P (.next i)) b
      rw [step_beginAt hf hroot]
    have hgi : (Lazy.beginAt y0 i uids).gens i = ⟨uids, .running (missingAt y0.s uids) uids⟩ := by
      show Function.update y0.gens i _ i = _
      rw [Function.update_self]
    have hs := stands (P := P) i uids (missingAt y0.s uids) (.next i :: b) (y := Lazy.beginAt y0 i uids) 0 hB hp (by rw [hgi]) (Or.inr ⟨by rw [hgi]; rfl, Nat.zero_le _⟩)
    rw [← hrun] at hs
    rcases hs with ⟨h1, h2 | ⟨h2, _⟩⟩ | ⟨h1, _⟩
    · exact absurd h2 hnd
    · have hIy := I.hist (P := P) (.next i :: b) hI hp
      refine ⟨(run P y0 (.next i :: b)).s, hIy.jt, hIy.rooted i _ _ h2, rfl, rfl, rfl, rfl, rfl, ?_⟩
      rw [Nat.zero_add] at h2
      have : (run P y0 (.next i :: b)).gens i = ⟨uids, .running (missingAt y0.s uids) (uids.drop (turns i (.next i :: b)))⟩ := by rw [← h2, ← h1]
      rw [this]
    · rw [hgi] at h1; simp at h1

/-- **C104**. In any history an iteration visits the objects it was asked for in that order, whatever else happens. When it comes to an object that was absent or expired when the iteration began, it shows what is
stored at that moment (`None` if nothing is stored) and changes no other object; an object that was there it gives as it is. It raises only if such an object was removed meanwhile. It never changes the list of
pending changes or the database. -/
theorem turn (P : Params) (db : Uid → Content) (h0 h : List Event) (hp : ∀ e ∈ h0 ++ h, Proper e) (i : Nat) (uids : List Uid) (hf : (run P (.start db) h0).gens i = ⟨uids, .fresh⟩)
    (hroot : (run P (.start db) h0).s.root ≠ none) (hb : h = [] ∨ ∃ b, h = .next i :: b) (hnd : ((run P (.start db) (h0 ++ h)).gens i).phase ≠ .done) (u : Uid) (hu : uids[turns i h]? = some u) :
    let s0 := (run P (.start db) h0).s
    let y := run P (.start db) (h0 ++ h)
    let r := Lazy.next P y.s (y.gens i)
    (Absent s0 u → r.res = .ok (some (if y.s.stored u ≠ ∅ then some u else none)) ∧ (u ∈ r.s.reg ↔ y.s.stored u ≠ ∅) ∧ r.s.g u = y.s.stored u ∧
      ∀ v, v ≠ u → (v ∈ r.s.reg ↔ v ∈ y.s.reg) ∧ r.s.g v = y.s.g v) ∧
    (¬ Absent s0 u → r.res = (if u ∈ y.s.reg then .ok (some (some u)) else .error .keyError) ∧ ∀ v, (v ∈ r.s.reg ↔ v ∈ y.s.reg) ∧ r.s.g v = y.s.g v) ∧
    r.s.user = y.s.user ∧ r.s.db = y.s.db := by
  intro s0 y r
  have hI0 := I.hist (P := P) h0 (I.start db) (fun e he => hp e (List.mem_append_left _ he))
  have hy : y = run P (run P (.start db) h0) h := run_append P h0 h _
  have hnd' : ((run P (run P (.start db) h0) h).gens i).phase ≠ .done := by rw [← run_append]; exact hnd
  obtain ⟨s, c1, c2, c3, c4, c5, c6, c7, c8⟩ := standing (P := P) hI0 hf hroot (fun e he => hp e (List.mem_append_right _ he)) hb hnd'
  rw [← hy] at c3 c4 c5 c6 c7 c8
  obtain ⟨hlt, hget⟩ := List.getElem?_eq_some_iff.1 hu
  rw [List.drop_eq_getElem_cons hlt, hget] at c8
  have huin : u ∈ uids := hget ▸ List.getElem_mem hlt
  have hst : s.stored u = y.s.stored u := stored_eq c3 c7 u
  by_cases hm : u ∈ missingAt s0 uids
  · have hab := (mem_missingAt.1 hm).2
    obtain ⟨s', a1, a2, a3, a4, a5, a6, a7, a8⟩ := next_missing (P := P) c1 c2 uids (missingAt s0 uids) (uids.drop (turns i h + 1)) hm
    have hr : r = ⟨.ok (some (if s.stored u ≠ ∅ then some u else none)), s', ⟨uids, .running (missingAt s0 uids) (uids.drop (turns i h + 1))⟩⟩ := c8.trans a1
    rw [hst] at hr a6 a7
    rw [hr]
    refine ⟨fun _ => ⟨rfl, a6, a7, fun v hv => ?_⟩, fun k => absurd hab k, a3.trans c6, a4.trans c7⟩
    rw [← c4, ← c5]
    exact a8 v hv
  · have hab : ¬ Absent s0 u := fun k => hm (mem_missingAt.2 ⟨huin, k⟩)
    have hr : r = _ := c8.trans (next_present (P := P) c1 uids (missingAt s0 uids) (uids.drop (turns i h + 1)) hm)
    rw [c4] at hr
    rw [hr]
    refine ⟨fun k => absurd k hab, fun _ => ?_, ?_, ?_⟩
    · rw [← c4, ← c5]
      by_cases hur : u ∈ s.reg
      · rw [if_pos hur, if_pos hur]
        exact ⟨rfl, fun _ => ⟨Iff.rfl, rfl⟩⟩
      · rw [if_neg hur, if_neg hur]
        exact ⟨rfl, fun _ => ⟨Iff.rfl, rfl⟩⟩
    · split <;> exact c6
    · split <;> exact c7

/-- What an iteration gives from where it stands. -/
theorem given_from {P : Params} (i : Nat) (uids m : List Uid) : ∀ (h : List Event) {y : Sys} (k : Nat), I y → (∀ e ∈ h, Proper e) → i < y.count → (y.gens i).uids = uids →
    ((y.gens i).phase = .done ∨ (y.gens i).phase = .running m (uids.drop k)) →
    ∀ n x, (given P i y h)[n]? = some x → ∃ u, uids[k + n]? = some u ∧ (x = some u ∨ x = none)
  | [], y, k, _, _, _, _, _, n, x, hx => by simp [given] at hx
  | e :: h, y, k, hI, hp, hc, hu, hph, n, x, hx => by
    have hI' := hI.step (P := P) (hp e List.mem_cons_self)
    have hp' : ∀ e' ∈ h, Proper e' := fun e' he => hp e' (List.mem_cons_of_mem _ he)
    cases e with
    | call o => exact given_from (P := P) i uids m h k hI' hp' hc hu hph n x hx
    | opens us =>
      have hg : (y.step P (.opens us)).gens i = y.gens i := by
        show Function.update y.gens y.count _ i = _
        rw [Function.update_of_ne (by omega)]
      exact given_from (P := P) i uids m h k hI' hp' (by show i < y.count + 1; omega) (by rw [hg]; exact hu) (by rw [hg]; exact hph) n x hx
    | next j =>
      by_cases hji : j = i
      · subst hji
        have hg : (y.step P (.next j)).gens j = (Lazy.next P y.s (y.gens j)).g := by
          show Function.update y.gens j _ j = _
          rw [Function.update_self]
        have hgu : ((y.step P (.next j)).gens j).uids = uids := by rw [hg, (next_all hI.jt _ (hI.rooted j)).2.2.2.2.1]; exact hu
        have silent : (∀ z, (Lazy.next P y.s (y.gens j)).res ≠ .ok (some z)) → (Lazy.next P y.s (y.gens j)).g.phase = .done → ∃ u, uids[k + n]? = some u ∧ (x = some u ∨ x = none) := by
          intro h1 h2
          refine given_from (P := P) j uids m h k hI' hp' hc hgu (Or.inl (by rw [hg]; exact h2)) n x ?_
          have : given P j y (.next j :: h) = given P j (y.step P (.next j)) h := by
            simp only [given, if_true]
            cases hr : (Lazy.next P y.s (y.gens j)).res with
            | error e => rfl
            | ok z =>
              cases z with
              | none => rfl
              | some z => exact absurd hr (h1 z)
          rw [← this]; exact hx
        have gives : ∀ u z, uids[k]? = some u → (z = some u ∨ z = none) → (Lazy.next P y.s (y.gens j)).res = .ok (some z) → (Lazy.next P y.s (y.gens j)).g.phase = .running m (uids.drop (k + 1)) →
            ∃ u, uids[k + n]? = some u ∧ (x = some u ∨ x = none) := by
          intro u z h1 h2 h3 h4
          have : given P j y (.next j :: h) = z :: given P j (y.step P (.next j)) h := by
            simp only [given, if_true, h3]
            rfl
          rw [this] at hx
          cases n with
          | zero =>
            simp only [List.getElem?_cons_zero, Option.some.injEq] at hx
            subst hx
            exact ⟨u, h1, h2⟩
          | succ n =>
            rw [List.getElem?_cons_succ] at hx
            obtain ⟨u', a, b⟩ := given_from (P := P) j uids m h (k + 1) hI' hp' hc hgu (Or.inr (by rw [hg]; exact h4)) n x hx
            exact ⟨u', by rw [show k + (n + 1) = k + 1 + n by omega]; exact a, b⟩
        rcases hph with hd | hph
        · have : y.gens j = ⟨(y.gens j).uids, .done⟩ := by rw [← hd]
          rw [this, next_done hI.jt.ctx] at silent
          exact silent (by simp) rfl
        · have hgj : y.gens j = ⟨uids, .running m (uids.drop k)⟩ := by rw [← hph, ← hu]
          have hroot := hI.rooted j _ _ hph
          rw [hgj] at silent gives
          by_cases hlt : k < uids.length
          · rw [List.drop_eq_getElem_cons hlt] at silent gives
            by_cases hm : uids[k] ∈ m
            · obtain ⟨s', a1, _⟩ := next_missing (P := P) hI.jt hroot uids m (uids.drop (k + 1)) hm
              rw [a1] at gives
              refine gives uids[k] _ (List.getElem?_eq_getElem hlt) ?_ rfl rfl
              split
              · exact Or.inl rfl
              · exact Or.inr rfl
            · rw [next_present hI.jt uids m (uids.drop (k + 1)) hm] at silent gives
              by_cases hr : uids[k] ∈ y.s.reg
              · rw [if_pos hr] at gives
                exact gives uids[k] _ (List.getElem?_eq_getElem hlt) (Or.inl rfl) rfl rfl
              · rw [if_neg hr] at silent
                exact silent (by simp) rfl
          · rw [List.drop_eq_nil_of_le (by omega), next_end hI.jt.ctx] at silent
            exact silent (by simp) rfl
      · have hg : (y.step P (.next j)).gens i = y.gens i := by
          show Function.update y.gens j _ i = _
          rw [Function.update_of_ne (Ne.symm hji)]
        have : given P i y (.next j :: h) = given P i (y.step P (.next j)) h := by simp only [given, if_neg hji]; rfl
        rw [this] at hx
        exact given_from (P := P) i uids m h k hI' hp' hc (by rw [hg]; exact hu) (by rw [hg]; exact hph) n x hx

/-- **C104**. Whatever happens in between: the `n`-th object an iteration gives is the `n`-th it was asked for, or `None`. -/
theorem in_order (P : Params) (db : Uid → Content) (h0 : List Event) (uids : List Uid) (h : List Event) (hp : ∀ e ∈ h0 ++ h, Proper e) (n : Nat) (x : Option Uid) :
    let y := run P (.start db) h0
    (given P y.count (y.step P (.opens uids)) h)[n]? = some x → ∃ u, uids[n]? = some u ∧ (x = some u ∨ x = none) := by
  intro y hx
  have hI0 := I.hist (P := P) h0 (I.start db) (fun e he => hp e (List.mem_append_left _ he))
  have hp' : ∀ e ∈ h, Proper e := fun e he => hp e (List.mem_append_right _ he)
  have hI1 : I (y.step P (.opens uids)) := hI0.step (e := .opens uids) trivial
  have hf : (y.step P (.opens uids)).gens y.count = ⟨uids, .fresh⟩ := by
    show Function.update y.gens y.count _ y.count = _
    rw [Function.update_self]
  have hc : y.count < (y.step P (.opens uids)).count := Nat.lt_succ_self _
  generalize y.step P (.opens uids) = z at *
  generalize y.count = i at *
  clear hI0 y hp
  -- up to the first `next`
  induction h generalizing z with
  | nil => simp [given] at hx
  | cons e h ih =>
    have hI' := hI1.step (P := P) (hp' e List.mem_cons_self)
    have hq : ∀ e' ∈ h, Proper e' := fun e' he => hp' e' (List.mem_cons_of_mem _ he)
    cases e with
    | call o => exact ih hq (z.step P (.call o)) hI' hx hf hc
    | opens us =>
      refine ih hq (z.step P (.opens us)) hI' hx ?_ (by show i < z.count + 1; omega)
      show Function.update z.gens z.count _ i = _
      rw [Function.update_of_ne (by omega)]
      exact hf
    | next j =>
      by_cases hji : j = i
      · subst hji
        by_cases hroot : z.s.root = none
        · have hn := next_fresh_none (P := P) hI1.jt.ctx hroot uids
          have hg : (z.step P (.next j)).gens j = ⟨uids, .done⟩ := by
            show Function.update z.gens j _ j = _
            rw [Function.update_self, hf, hn]
          have : given P j z (.next j :: h) = given P j (z.step P (.next j)) h := by
            simp only [given, if_true, hf, hn]
            rfl
          rw [this] at hx
          have := given_from (P := P) j uids [] h 0 hI' hq hc (by rw [hg]) (Or.inl (by rw [hg])) n x hx
          rw [Nat.zero_add] at this
          exact this
        · have hB := hI1.beginAt hf hroot
          have hgi : (beginAt z j uids).gens j = ⟨uids, .running (missingAt z.s uids) uids⟩ := by
            show Function.update z.gens j _ j = _
            rw [Function.update_self]
          have : given P j z (.next j :: h) = given P j (beginAt z j uids) (.next j :: h) := by
            have h2 : Lazy.next P (beginAt z j uids).s ((beginAt z j uids).gens j) = Lazy.next P z.s (z.gens j) := by
              rw [hgi, hf, next_fresh hroot]
              rfl
            simp only [given, step_beginAt hf hroot, h2]
          rw [this] at hx
          have := given_from (P := P) j uids (missingAt z.s uids) (.next j :: h) 0 hB hp' hc (by rw [hgi]) (Or.inr (by rw [hgi]; rfl)) n x hx
          rw [Nat.zero_add] at this
          exact this
      · have : given P i z (.next j :: h) = given P i (z.step P (.next j)) h := by simp only [given, if_neg hji]; rfl
        rw [this] at hx
        refine ih hq (z.step P (.next j)) hI' hx ?_ hc
        show Function.update z.gens j _ i = _
        rw [Function.update_of_ne (Ne.symm hji)]
        exact hf

end Osp.Lazy
