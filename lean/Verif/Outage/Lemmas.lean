import Verif.Outage.Spec
/-!
# Calls during which the database fails: auxiliary facts
-/
namespace Osp.Outage
open Osp.Sess
open Osp.Multi (J Tidy Trace)
open Osp.Lazy (JT)

theorem raised_user {α : Type} {s : St} (hc : s.ctx = .user) : (raised s : Res α) = (.error .exception, { s with engine := .empty }) := by
  unfold raised
  rw [Lazy.inEngine_user hc, ← hc]

/-- One round of the loop, from the loop over one object. -/
theorem round {P : Params} {uids missing : List Uid} {u : Uid} {s : St} (hroot : s.root ≠ none) (ht : Tidy s) (hc : s.ctx = .user) (hnm : u ∉ missing → u ∈ s.reg) :
    ∃ x s1, s.inEngine (St.loadStep P uids missing u) = (.ok x, s1) ∧ s1.root = s.root ∧ s1.ctx = .user ∧ Tidy s1 ∧ ∀ v, v ∉ missing → (v ∈ s1.reg ↔ v ∈ s.reg) := by
  obtain ⟨xs, s', d1, d2, d3, d4, d5, d6, d7, d8⟩ := Multi.loadLoop_weak (P := P) uids missing [u] s hroot ht hc (by simpa using hnm)
  unfold St.loadLoop at d1
  generalize s.inEngine (St.loadStep P uids missing u) = r at *
  obtain ⟨r1, r2⟩ := r
  cases r1 with
  | error e => simp at d1
  | ok x =>
    have : r2 = s' := by
      simp only [St.loadLoop, Prod.mk.injEq] at d1
      exact d1.2
    subst this
    exact ⟨x, r2, rfl, d4, d5, d6, fun v hv => (d8 v (Or.inr hv)).1⟩

/-- The backend answers all requests of the loop. -/
theorem loop_enough {P : Params} {uids missing : List Uid} : ∀ (us : List Uid) (n : Nat) (s : St), ¬ n < (us.filter (· ∈ missing)).length →
    loadLoop P uids missing n us s = St.loadLoop P uids missing us s
  | [], _, _, _ => rfl
  | u :: us, n, s, h => by
    unfold loadLoop St.loadLoop
    have hn : ¬ (u ∈ missing ∧ n = 0) := by
      rintro ⟨a, rfl⟩
      rw [List.filter_cons_of_pos (by simpa using a)] at h
      exact h (by simp)
    rw [if_neg hn]
    generalize s.inEngine (St.loadStep P uids missing u) = r
    obtain ⟨r1, r2⟩ := r
    cases r1 with
    | error e => rfl
    | ok x =>
      dsimp only
      have key : ¬ (if u ∈ missing then n - 1 else n) < (us.filter (· ∈ missing)).length := by
        by_cases hm : u ∈ missing
        · rw [if_pos hm]
          rw [List.filter_cons_of_pos (by simpa using hm), List.length_cons] at h
          omega
        · rw [if_neg hm]
          rw [List.filter_cons_of_neg (by simpa using hm)] at h
          exact h
      rw [loop_enough us _ r2 key]
      generalize St.loadLoop P uids missing us r2 = q
      obtain ⟨q1, q2⟩ := q
      cases q1 <;> rfl

/-- The backend fails within the loop: everything before that is as without the failure. -/
theorem loop_short {P : Params} {uids missing : List Uid} : ∀ (us : List Uid) (n : Nat) (s : St), s.root ≠ none → Tidy s → s.ctx = .user → (∀ u ∈ us, u ∉ missing → u ∈ s.reg) →
    n < (us.filter (· ∈ missing)).length →
    ∃ done u rest, us = done ++ u :: rest ∧ u ∈ missing ∧ (done.filter (· ∈ missing)).length = n ∧ loadLoop P uids missing n us s = raised (St.loadLoop P uids missing done s).2
  | [], _, _, _, _, _, _, h => by simp at h
  | u :: us, n, s, hroot, ht, hc, hnm, h => by
    by_cases hn : u ∈ missing ∧ n = 0
    · refine ⟨[], u, us, rfl, hn.1, hn.2.symm, ?_⟩
      rw [loadLoop, if_pos hn]
      rfl
    · obtain ⟨x, s1, a1, a2, a3, a4, a5⟩ := round (P := P) (uids := uids) hroot ht hc (hnm u List.mem_cons_self)
      have hlt : (if u ∈ missing then n - 1 else n) < (us.filter (· ∈ missing)).length := by
        by_cases hm : u ∈ missing
        · rw [List.filter_cons_of_pos (by simpa using hm), List.length_cons] at h
          rw [if_pos hm]
          have : n ≠ 0 := fun k => hn ⟨hm, k⟩
          omega
        · rw [List.filter_cons_of_neg (by simpa using hm)] at h
          rw [if_neg hm]
          exact h
      obtain ⟨done, w, rest, b1, b2, b3, b4⟩ := loop_short us (if u ∈ missing then n - 1 else n) s1 (by rw [a2]; exact hroot) a4 a3
        (fun v hv hm => (a5 v hm).2 (hnm v (List.mem_cons_of_mem _ hv) hm)) hlt
      refine ⟨u :: done, w, rest, by rw [b1]; rfl, b2, ?_, ?_⟩
      · by_cases hm : u ∈ missing
        · rw [List.filter_cons_of_pos (by simpa using hm), List.length_cons, b3, if_pos hm]
          have : n ≠ 0 := fun k => hn ⟨hm, k⟩
          omega
        · rw [List.filter_cons_of_neg (by simpa using hm), b3, if_neg hm]
      · rw [loadLoop, if_neg hn, a1]
        dsimp only
        rw [b4]
        have hok : ∃ xs s2, St.loadLoop P uids missing done s1 = (.ok xs, s2) ∧ s2.ctx = .user := by
          obtain ⟨xs, s2, c1, _, _, _, c5, _⟩ := Multi.loadLoop_weak (P := P) uids missing done s1 (by rw [a2]; exact hroot) a4 a3
            (fun v hv hm => (a5 v hm).2 (hnm v (by rw [b1]; simp [hv]) hm))
          exact ⟨xs, s2, c1, c5⟩
        obtain ⟨xs, s2, c1, c2⟩ := hok
        have : (St.loadLoop P uids missing (u :: done) s).2 = s2 := by
          unfold St.loadLoop
          rw [a1]
          dsimp only
          rw [c1]
        rw [c1, this]
        simp only [raised_user c2]

/-- No object the load was asked for gets a mark in the loop. -/
theorem loop_expired {P : Params} {uids missing : List Uid} {v : Uid} (hv : v ∈ uids) : ∀ (us : List Uid) (s : St), v ∉ s.expired → v ∉ (St.loadLoop P uids missing us s).2.expired
  | [], _, h => h
  | u :: us, s, h => by
    unfold St.loadLoop
    have h1 : v ∉ (s.inEngine (St.loadStep P uids missing u)).2.expired := by
      unfold St.inEngine
      dsimp only
      exact Lazy.expired_loadStep uids missing u v hv (by split <;> exact h)
    generalize s.inEngine (St.loadStep P uids missing u) = r at *
    obtain ⟨r1, r2⟩ := r
    cases r1 with
    | error e => exact h1
    | ok x =>
      dsimp only
      have := loop_expired (P := P) (missing := missing) hv us r2 h1
      generalize St.loadLoop P uids missing us r2 = q at *
      obtain ⟨q1, q2⟩ := q
      cases q1 <;> exact this

theorem mem_missing {s : St} {uids : List Uid} {u : Uid} : u ∈ uids.filter (fun u => u ∉ s.reg ∨ u ∈ uids.filter (· ∈ s.expired)) ↔ u ∈ uids ∧ Absent s u := Lazy.mem_missingAt

theorem filter_missing {s : St} {uids us : List Uid} (h : ∀ u ∈ us, u ∈ uids) :
    us.filter (· ∈ uids.filter (fun u => u ∉ s.reg ∨ u ∈ uids.filter (· ∈ s.expired))) = us.filter (Absent s ·) := by
  apply List.filter_congr
  intro u hu
  rw [decide_eq_decide, mem_missing]
  exact ⟨fun k => k.2, fun k => ⟨h u hu, k⟩⟩

/-- A load during which the backend does not fail. -/
theorem load_fine {P : Params} {s : St} (hroot : s.root ≠ none) (ht : Tidy s) (hc : s.ctx = .user) (uids : List Uid) :
    ∃ xs s', s.load P uids = (.ok xs, s') ∧ s'.user = s.user ∧ s'.db = s.db ∧ s'.root = s.root ∧ s'.ctx = .user ∧ Tidy s' ∧
      (∀ v ∈ uids, Absent s v → (v ∈ s'.reg ↔ s.stored v ≠ ∅) ∧ s'.g v = s.stored v) ∧ (∀ v, v ∉ uids ∨ ¬ Absent s v → (v ∈ s'.reg ↔ v ∈ s.reg) ∧ s'.g v = s.g v) := by
  unfold St.load
  rw [if_neg hroot]
  dsimp only
  obtain ⟨xs, s', d1, d2, d3, d4, d5, d6, d7, d8⟩ := Multi.loadLoop_weak (P := P) uids (uids.filter (fun u => u ∉ s.reg ∨ u ∈ uids.filter (· ∈ s.expired))) uids
    { s with expired := s.expired.filter (· ∉ uids.filter (· ∈ s.expired)) } hroot ht hc
    (fun u hu hm => by
      rw [mem_missing] at hm
      show u ∈ s.reg
      unfold Absent at hm
      tauto)
  exact ⟨xs, s', d1, d2, d3, d4, d5, d6, fun v hv hm => d7 v hv (mem_missing.2 ⟨hv, hm⟩), fun v hv => by
    obtain ⟨a, b, _⟩ := d8 v (by rw [mem_missing]; tauto)
    exact ⟨a, b⟩⟩

theorem load_enough {P : Params} {s : St} {n : Nat} {uids : List Uid} (h : ¬ n < (uids.filter (Absent s ·)).length) : load P s n uids = s.load P uids := by
  unfold load St.load
  split
  · rfl
  · dsimp only
    rw [loop_enough]
    rw [filter_missing fun _ h => h]
    exact h

/-- A load during which the backend fails. -/
theorem load_short {P : Params} {s : St} (hroot : s.root ≠ none) (ht : Tidy s) (hc : s.ctx = .user) {n : Nat} {uids : List Uid} (h : n < (uids.filter (Absent s ·)).length) :
    ∃ done u rest s', uids = done ++ u :: rest ∧ Absent s u ∧ (done.filter (Absent s ·)).length = n ∧ load P s n uids = (.error .exception, s') ∧
      s'.user = s.user ∧ s'.db = s.db ∧ s'.root = s.root ∧ s'.ctx = .user ∧ Tidy s' ∧
      (∀ v ∈ done, Absent s v → (v ∈ s'.reg ↔ s.stored v ≠ ∅) ∧ s'.g v = s.stored v) ∧
      (∀ v, v ∉ done ∨ ¬ Absent s v → (v ∈ s'.reg ↔ v ∈ s.reg) ∧ s'.g v = s.g v) ∧
      (∀ v ∈ uids, v ∉ s'.expired) ∧ (∀ v, v ∉ uids → v ∈ s.expired → v ∈ s.reg → v ∈ s'.expired) := by
  have hnm : ∀ u ∈ uids, u ∉ uids.filter (fun u => u ∉ s.reg ∨ u ∈ uids.filter (· ∈ s.expired)) → u ∈ s.reg := by
    intro u hu hm
    rw [mem_missing] at hm
    unfold Absent at hm
    tauto
  obtain ⟨done, u, rest, b1, b2, b3, b4⟩ := loop_short (P := P) (uids := uids) (missing := uids.filter (fun u => u ∉ s.reg ∨ u ∈ uids.filter (· ∈ s.expired))) uids n
    { s with expired := s.expired.filter (· ∉ uids.filter (· ∈ s.expired)) } hroot ht hc hnm (by rw [filter_missing fun _ h => h]; exact h)
  have hsub : ∀ v ∈ done, v ∈ uids := fun v hv => by rw [b1]; simp [hv]
  obtain ⟨xs, s', d1, d2, d3, d4, d5, d6, d7, d8⟩ := Multi.loadLoop_weak (P := P) uids (uids.filter (fun u => u ∉ s.reg ∨ u ∈ uids.filter (· ∈ s.expired))) done
    { s with expired := s.expired.filter (· ∉ uids.filter (· ∈ s.expired)) } hroot ht hc (fun v hv => hnm v (hsub v hv))
  have he := fun v hv => loop_expired (P := P) (uids := uids) (missing := uids.filter (fun u => u ∉ s.reg ∨ u ∈ uids.filter (· ∈ s.expired))) (v := v) hv done
    { s with expired := s.expired.filter (· ∉ uids.filter (· ∈ s.expired)) } (by simp only [List.mem_filter, decide_eq_true_eq]; tauto)
  rw [d1] at b4 he
  refine ⟨done, u, rest, { s' with engine := .empty }, b1, (mem_missing.1 b2).2, ?_, ?_, d2, d3, d4, d5, d6, fun v hv hm => d7 v hv (mem_missing.2 ⟨hsub v hv, hm⟩), fun v hv => ?_, he, fun v hv h1 h2 => ?_⟩
  · rw [← b3, filter_missing hsub]
  · unfold load
    rw [if_neg hroot]
    dsimp only
    rw [b4]
    exact raised_user d5
  · obtain ⟨a, b, _⟩ := d8 v (by rw [mem_missing]; tauto)
    exact ⟨a, b⟩
  · obtain ⟨_, _, c⟩ := d8 v (by rw [mem_missing]; tauto)
    refine c ?_ h2
    simp only [List.mem_filter, decide_eq_true_eq]
    tauto

/-- Proof device; nothing in /repo: what a failed call leaves behind. -/
structure Hit (s s' : St) : Prop where
  user : s'.user = s.user
  db : s'.db = s.db
  root : s'.root = s.root
  ctx : s'.ctx = .user
  tidy : Tidy s'
  cell : ∀ v, OldOrStored s s' v

/-- A refresh fails or is as without the failure. -/
theorem refresh_cases {P : Params} {s : St} (hroot : s.root ≠ none) (ht : Tidy s) (hc : s.ctx = .user) (n : Nat) (us : List Uid) :
    refresh P s n us = s.refresh P us ∨ ∃ s', refresh P s n us = (.error .exception, s') ∧ Hit s s' ∧ (∀ v, v ∈ s.user.uids ∨ v ∉ us → (v ∈ s'.reg ↔ v ∈ s.reg) ∧ s'.g v = s.g v) ∧
      (∀ v ∈ us, v ∉ s.user.uids → v ∈ s.reg → v ∉ s'.expired) := by
  unfold refresh St.refresh
  by_cases hn : us = []
  · left; rw [if_pos hn, if_pos hn]
  · rw [if_neg hn, if_neg hn]
    have hpair : s.expire us = ((s.expire us).1, (s.expire us).2) := rfl
    rw [hpair]
    dsimp only
    by_cases h : n < ((s.expire us).1.filter (Absent (s.expire us).2 ·)).length
    · right
      obtain ⟨done, u, rest, s', a1, a2, a3, a4, a5, a6, a7, a8, a9, a10, a11, a12, _⟩ := load_short (P := P) (s := (s.expire us).2) hroot ht hc h
      rw [a4]
      refine ⟨s', rfl, ⟨a5, a6, a7, a8, a9, fun v => ?_⟩, fun v hv => ?_, fun v h1 h2 h3 => a12 v ((mem_expire_fst s us v).2 ⟨h1, h2, h3⟩)⟩
      · by_cases hv : v ∈ done ∧ Absent (s.expire us).2 v
        · exact Or.inr (a10 v hv.1 hv.2)
        · exact Or.inl (a11 v (by tauto))
      · refine a11 v (Or.inl fun hd => ?_)
        obtain ⟨k1, k2, _⟩ := (mem_expire_fst s us v).1 (by rw [a1]; simp [hd])
        rcases hv with k | k
        · exact k2 k
        · exact k k1
    · left
      rw [load_enough h]
      generalize St.load P (s.expire us).2 (s.expire us).1 = q
      obtain ⟨q1, q2⟩ := q
      cases q1 <;> rfl

theorem read_cases {P : Params} {s : St} (hroot : s.root ≠ none) (ht : Tidy s) (hc : s.ctx = .user) (n : Nat) (u : Uid) :
    notifyRead P s n u = s.notifyRead P u ∨ ∃ s', notifyRead P s n u = (.error .exception, s') ∧ Hit s s' ∧ (∀ v, v ∈ s.user.uids ∨ v ≠ u → (v ∈ s'.reg ↔ v ∈ s.reg) ∧ s'.g v = s.g v) ∧
      (u ∉ s.user.uids → u ∈ s.reg → u ∉ s'.expired) := by
  unfold notifyRead St.notifyRead
  by_cases he : u ∈ s.expired
  · rw [if_pos he, if_pos he]
    rcases refresh_cases (P := P) hroot ht hc n [u] with h | ⟨s', a, b, c, d⟩
    · exact Or.inl h
    · exact Or.inr ⟨s', a, b, fun v hv => c v (by simpa using hv), fun h1 h2 => d u (by simp) h1 h2⟩
  · left; rw [if_neg he, if_neg he]

theorem read_none {P : Params} {s : St} (h : JT s) (hroot : s.root = none) (n : Nat) (u : Uid) : notifyRead P s n u = s.notifyRead P u := by
  have he : u ∉ s.expired := by rw [(h.closed hroot).2]; simp
  unfold notifyRead St.notifyRead
  rw [if_neg he, if_neg he]

/-- What a query by class does to the objects before it fails. -/
theorem found_cell : ∀ (us : List Uid) {s : St}, s.root ≠ none → Tidy s → s.ctx = .user →
    ∃ xs s', s.loadFound us = (.ok xs, s') ∧ s'.user = s.user ∧ s'.db = s.db ∧ s'.root = s.root ∧ s'.ctx = .user ∧ Tidy s' ∧ (∀ v, OldOrStored s s' v) ∧ (∀ v, v ∉ us → (v ∈ s'.reg ↔ v ∈ s.reg) ∧ s'.g v = s.g v)
  | [], s, _, ht, hc => ⟨[], s, rfl, rfl, rfl, rfl, hc, ht, fun _ => Or.inl ⟨Iff.rfl, rfl⟩, fun _ _ => ⟨Iff.rfl, rfl⟩⟩
  | u :: us, s, hroot, ht, hc => by
    have h1 : ∃ x s1, s.inEngine (fun s => s.loadByIri u) = (.ok x, s1) ∧ s1.user = s.user ∧ s1.db = s.db ∧ s1.root = s.root ∧ s1.ctx = .user ∧ Tidy s1 ∧
        OldOrStored s s1 u ∧ ∀ v, v ≠ u → (v ∈ s1.reg ↔ v ∈ s.reg) ∧ s1.g v = s.g v := by
      rw [Lazy.inEngine_user hc]
      rcases loadByIri_spec (s := { s with engine := .empty, ctx := .engine }) hroot rfl (u := u) (ht u) (by simp [Buf.empty]) with ⟨a, b⟩ | ⟨a, e, _, b⟩
      · rw [b]
        exact ⟨_, _, rfl, rfl, rfl, rfl, rfl, ht, Or.inl ⟨Iff.rfl, rfl⟩, fun _ _ => ⟨Iff.rfl, rfl⟩⟩
      · rw [b]
        refine ⟨_, _, rfl, rfl, rfl, rfl, rfl, fun v hv => ?_, Or.inr ⟨⟨fun _ => a, fun _ => (mem_ins _ _ _).2 (Or.inr rfl)⟩, ?_⟩, fun v hv => ⟨?_, Function.update_of_ne hv _ _⟩⟩
        · have hv' : v ∉ ins s.reg u := hv
          rw [mem_ins] at hv'
          have hvu : v ≠ u := by tauto
          show Function.update s.g u _ v = ∅
          rw [Function.update_of_ne hvu]
          exact ht v (by tauto)
        · show Function.update s.g u _ u = _
          rw [Function.update_self]
          rfl
        · show v ∈ ins s.reg u ↔ _
          rw [mem_ins]; tauto
    obtain ⟨x, s1, a1, a2, a3, a4, a5, a6, a7, a8⟩ := h1
    obtain ⟨xs, s', b1, b2, b3, b4, b5, b6, b7, b8⟩ := found_cell us (s := s1) (by rw [a4]; exact hroot) a6 a5
    refine ⟨x :: xs, s', ?_, b2.trans a2, b3.trans a3, b4.trans a4, b5, b6, fun v => ?_, fun v hv => ?_⟩
    · unfold St.loadFound
      rw [a1]
      dsimp only
      rw [b1]
    · rcases b7 v with ⟨k1, k2⟩ | ⟨k1, k2⟩
      · by_cases hv : v = u
        · subst hv
          rcases a7 with ⟨q1, q2⟩ | ⟨q1, q2⟩
          · exact Or.inl ⟨k1.trans q1, k2.trans q2⟩
          · exact Or.inr ⟨k1.trans q1, k2.trans q2⟩
        · obtain ⟨q1, q2⟩ := a8 v hv
          exact Or.inl ⟨k1.trans q1, k2.trans q2⟩
      · rw [stored_eq a4 a3] at k1 k2
        exact Or.inr ⟨k1, k2⟩
    · obtain ⟨q1, q2⟩ := a8 v (fun k => hv (k ▸ List.mem_cons_self))
      obtain ⟨k1, k2⟩ := b8 v (fun k => hv (List.mem_cons_of_mem _ k))
      exact ⟨k1.trans q1, k2.trans q2⟩

end Osp.Outage
