import Verif.Down.Spec
/-!
# What a call does while the database is down

Every call either does what it always does or raises; then at most the expiry marks and the engine buffers changed, and the invariant of `Verif/Remote/Inv.lean` still holds.
-/
namespace Osp.Down
open Osp.Sess Osp.Sync Osp.Remote

variable {r : Uid} {m : View} {s : RSt} {P : Params}

/-! ### the server -/

/-- Loading on the server without a database. -/
theorem loop_none {uids missing : List Uid} : ∀ (us : List Uid) (t : St), t.ctx = .user → (∀ u ∈ us, u ∉ missing → u ∈ t.reg) →
    Outage.loadLoop P uids missing 0 us t = St.loadLoop P uids missing us t ∨ Outage.loadLoop P uids missing 0 us t = (.error .exception, { t with engine := .empty })
  | [], _, _, _ => Or.inl rfl
  | u :: us, t, hc, hn => by
    unfold Outage.loadLoop St.loadLoop
    by_cases hu : u ∈ missing
    · right
      rw [if_pos ⟨hu, rfl⟩]
      exact Outage.raised_user hc
    · rw [if_neg (by tauto), if_neg hu]
      have hreg := hn u List.mem_cons_self hu
      have e : t.inEngine (St.loadStep P uids missing u) = (.ok (some u), { t with engine := .empty }) := by
        rw [Lazy.inEngine_user hc]
        unfold St.loadStep
        rw [if_pos hu, if_pos hreg, ← hc]
      rw [e]
      dsimp only
      rcases loop_none us { t with engine := .empty } hc (fun v hv => hn v (List.mem_cons_of_mem _ hv)) with k | k
      · left
        rw [k]
        generalize St.loadLoop P uids missing us _ = q
        obtain ⟨q1, q2⟩ := q
        cases q1 <;> rfl
      · right; rw [k]

theorem fetch_cases {us : List Uid} {t : St} (hc : t.ctx = .user) (hr : t.root ≠ none) :
    fetch P us t = Remote.fetch P us t ∨ fetch P us t = (.error .exception, { t with expired := t.expired.filter (· ∉ us.filter (· ∈ t.expired)), engine := .empty }) := by
  unfold fetch Remote.fetch Outage.load St.load
  rw [if_neg hr, if_neg hr]
  dsimp only
  exact loop_none us _ hc (by
    intro u hu hn
    by_contra k
    exact hn (List.mem_filter.2 ⟨hu, by simpa using Or.inl k⟩))

/-- Proof device; nothing in /repo: what an exception on the server leaves: at most expiry marks of unchanged objects are lost or added, and the engine buffers are reset. -/
def Left (t t' : St) : Prop := ∃ ex, t' = { t with expired := ex, engine := .empty } ∧ ∀ v ∈ ex, v ∈ t.user.uids → v ∈ t.expired

/-- A request for objects while the database is down. -/
theorem request_cases {E us : List Uid} {c t : St} (hc : t.ctx = .user) (hr : t.root ≠ none) :
    request .fine ⟨none, E, []⟩ (fetch P us) c t = request .fine ⟨none, E, []⟩ (Remote.fetch P us) c t ∨
      ∃ t', Left t t' ∧ request .fine ⟨none, E, []⟩ (fetch P us) c t = ⟨.error .runtimeError, c, t'⟩ := by
  have hde : deserialize .user ⟨none, E, []⟩ t = (.ok [], (t.expire E).2) := rfl
  have h1 : (t.expire E).2.ctx = .user := hc
  have h2 : (t.expire E).2.root ≠ none := hr
  rcases fetch_cases (P := P) (us := us) h1 h2 with k | k
  · left
    unfold request serve
    rw [hde]
    dsimp only
    rw [k]
  · right
    refine ⟨_, ⟨(t.expire E).2.expired.filter (· ∉ us.filter (· ∈ (t.expire E).2.expired)), rfl, ?_⟩, ?_⟩
    · intro v hv hu
      have := (List.mem_filter.1 hv).1
      rw [(expire_exact t E v).1] at this
      rw [mem_uids] at hu
      tauto
    · unfold request serve
      rw [hde]
      dsimp only
      rw [k]
      rfl

/-! ### the invariant -/

theorem Good.left (h : Good r m s) {t' : St} (k : Left s.t t') : Good r m ⟨s.c, t'⟩ := by
  obtain ⟨ex, rfl, k⟩ := k
  exact ⟨⟨h.sync.cctx, h.sync.tctx, h.sync.cbuf, h.sync.nodup, h.sync.tbuf, h.sync.has, h.sync.fresh, h.sync.known, h.sync.same⟩,
    h.croot, h.troot, h.hasr, h.tr, h.has, h.view, h.full, h.unreg, h.db, h.zero, h.cexp, fun v hv q => h.texp v (k v hv q) q, h.clean, h.tadd, h.radd, h.rsub, h.cadd, h.dead1, h.dead2, h.out, h.left, h.new⟩

theorem left_engine {t t' : St} (k : Left t t') : t'.engine = .empty := by
  obtain ⟨ex, rfl, -⟩ := k; rfl

/-- Proof device; nothing in /repo: a call raised and changed nothing the user can see. -/
def Failed (r : Uid) (m : View) {α : Type} (x : Except PyErr α × RSt) : Prop := x.1 = .error .runtimeError ∧ Good r m x.2 ∧ x.2.t.engine = .empty

/-! ### loading one object and reading -/

theorem load1_cases (h : Good r m s) (u : Uid) :
    load1 P .fine (fetch P) u s.c s.t = load1 P .fine (Remote.fetch P) u s.c s.t ∨
      Failed r m ((load1 P .fine (fetch P) u s.c s.t).res, ⟨(load1 P .fine (fetch P) u s.c s.t).client, (load1 P .fine (fetch P) u s.c s.t).server⟩) := by
  unfold load1
  by_cases hr : s.c.root = none
  · left; rw [if_pos hr, if_pos hr]
  · rw [if_neg hr, if_neg hr]
    dsimp only
    by_cases hu : u ∈ s.c.reg ∧ u ∉ s.c.expired
    · left; rw [if_pos hu, if_pos hu]
    · rw [if_neg hu, if_neg hu]
      rcases request_cases (P := P) (E := if u ∈ s.c.expired then [u] else del s.c.expired u) (us := [u]) (c := { s.c with engine := .empty, ctx := .engine, expired := del s.c.expired u })
        h.sync.tctx (by rw [h.troot]; simp) with k | ⟨t', k1, k2⟩
      · left; rw [k]
      · right
        rw [k2]
        have g := Good.left (h.setExp (ex := del s.c.expired u) .empty fun v hv => h.cexp v ((mem_del ..).1 hv).1) k1
        exact ⟨rfl, g, left_engine k1⟩

theorem read_cases (h : Good r m s) (u : Uid) : read P s u = Remote.read P s u ∨ Failed r m (read P s u) := by
  unfold read Remote.read Sync.read
  by_cases hu : u ∈ s.c.expired
  · rw [if_pos hu, if_pos hu]
    have g := h.expire [u]
    unfold Remote.expire at g
    revert g
    generalize s.c.expire [u] = y
    obtain ⟨es, c⟩ := y
    intro g
    dsimp only at g ⊢
    cases es with
    | nil => left; rfl
    | cons a as =>
      dsimp only
      rcases load1_cases (P := P) g u with k | ⟨k1, k2, k3⟩
      · left
        dsimp only at k
        rw [k]
      · right
        refine ⟨?_, k2, k3⟩
        dsimp only at k1 ⊢
        rw [k1]
        rfl
  · left; rw [if_neg hu, if_neg hu]

theorem modify_cases (h : Good r m s) (u : Uid) (f : Content → Content) : modify P s u f = Remote.modify P s u f ∨ Failed r m (modify P s u f) := by
  rcases read_cases (P := P) h u with k | k
  · left
    unfold modify Remote.modify
    rw [k]
    generalize Remote.read P s u = q
    obtain ⟨q1, q2⟩ := q
    cases q1 <;> rfl
  · right
    unfold modify
    revert k
    generalize read P s u = q
    obtain ⟨q1, q2⟩ := q
    rintro ⟨k1, k2, k3⟩
    dsimp only at k1 k2 k3
    subst k1
    exact ⟨rfl, k2, k3⟩

theorem delete_cases (h : Good r m s) (u : Uid) : delete P s u = Remote.delete P s u ∨ Failed r m (delete P s u) := by
  rcases read_cases (P := P) h u with k | k
  · left
    unfold delete Remote.delete
    rw [k]
    generalize Remote.read P s u = q
    obtain ⟨q1, q2⟩ := q
    cases q1 <;> rfl
  · right
    unfold delete
    revert k
    generalize read P s u = q
    obtain ⟨q1, q2⟩ := q
    rintro ⟨k1, k2, k3⟩
    dsimp only at k1 k2 k3
    subst k1
    exact ⟨rfl, k2, k3⟩

theorem load_cases (h : Good r m s) (u : Uid) : load P s u = Remote.load P s u ∨ Failed r m (load P s u) := by
  unfold load Remote.load
  rcases load1_cases (P := P) h u with k | k
  · left; rw [k]
  · right; exact k

/-! ### loading several objects -/

/-- After the request the database is not asked again. -/
theorem loop_rest {us missing expired : List Uid} : ∀ (rest : List Uid) (rs : List (Option Uid)) (s : RSt),
    manyLoop P us missing expired rest (some rs) s = Remote.manyLoop P us missing expired rest (some rs) s
  | [], _, _ => rfl
  | u :: rest, rs, s => by
    unfold manyLoop Remote.manyLoop
    dsimp only [getMissing, Remote.getMissing]
    split
    · split
      · rfl
      · rw [loop_rest rest]
        generalize Remote.manyLoop P us missing expired rest (some rs) _ = q
        obtain ⟨q1, q2⟩ := q
        cases q1 <;> rfl
    · generalize after P us _ u _ _ = q
      obtain ⟨q1, q2⟩ := q
      cases q1 with
      | error e => rfl
      | ok x =>
        dsimp only
        rw [loop_rest rest]
        generalize Remote.manyLoop P us missing expired rest _ _ = q
        obtain ⟨q1, q2⟩ := q
        cases q1 <;> rfl

theorem loop_cases {us missing expired : List Uid} : ∀ (rest : List Uid) (s : RSt), Good r m s → (∀ u ∈ rest, u ∉ missing → u ∈ s.c.reg) →
    manyLoop P us missing expired rest none s = Remote.manyLoop P us missing expired rest none s ∨ Failed r m (manyLoop P us missing expired rest none s)
  | [], _, _, _ => Or.inl rfl
  | u :: rest, s, h, hn => by
    have hc := h.sync.cctx
    unfold manyLoop Remote.manyLoop
    dsimp only
    rw [hc]
    simp only [ne_eq, reduceCtorEq, not_false_eq_true, if_true]
    by_cases hu : u ∈ missing
    · rw [if_neg (c := u ∉ missing) (by simpa using hu), if_neg (c := u ∉ missing) (by simpa using hu)]
      dsimp only [getMissing, Remote.getMissing]
      rcases request_cases (P := P) (E := if expired = [] then s.c.expired else expired) (us := missing) (c := { s.c with engine := .empty, ctx := .engine })
        h.sync.tctx (by rw [h.troot]; simp) with k | ⟨t', k1, k2⟩
      · left
        rw [k]
        generalize request .fine _ (Remote.fetch P missing) _ s.t = o
        obtain ⟨o1, o2, o3⟩ := o
        cases o1 with
        | error e => rfl
        | ok rs =>
          dsimp only
          generalize after P us _ u _ _ = q
          obtain ⟨q1, q2⟩ := q
          cases q1 with
          | error e => rfl
          | ok x =>
            dsimp only
            rw [loop_rest rest]
            generalize Remote.manyLoop P us missing expired rest _ _ = q
            obtain ⟨q1, q2⟩ := q
            cases q1 <;> rfl
      · right
        rw [k2]
        have g := Good.left (h.setExp (ex := s.c.expired) .empty h.cexp) k1
        have e : ({ s.c with engine := .empty, expired := s.c.expired } : St) = { s.c with engine := .empty, ctx := .user } := by rw [← hc]
        rw [e] at g
        exact ⟨rfl, g, left_engine k1⟩
    · have hreg := hn u List.mem_cons_self hu
      rw [if_pos (c := u ∉ missing) hu, if_neg (c := u ∉ s.c.reg) (by simpa using hreg), if_pos (c := u ∉ missing) hu, if_neg (c := u ∉ s.c.reg) (by simpa using hreg)]
      have g := h.setExp (ex := s.c.expired) .empty h.cexp
      have e : ({ s.c with engine := .empty, expired := s.c.expired } : St) = { s.c with engine := .empty, ctx := .user } := by rw [← hc]
      rw [e] at g
      rcases loop_cases rest _ g (fun v hv => hn v (List.mem_cons_of_mem _ hv)) with k | ⟨k1, k2, k3⟩
      · left
        rw [k]
        generalize Remote.manyLoop P us missing expired rest _ _ = q
        obtain ⟨q1, q2⟩ := q
        cases q1 <;> rfl
      · right
        revert k1 k2 k3
        generalize manyLoop P us missing expired rest none _ = q
        obtain ⟨q1, q2⟩ := q
        intro k1 k2 k3
        dsimp only at k1 k2 k3
        subst k1
        exact ⟨rfl, k2, k3⟩

theorem loadMany_cases (h : Good r m s) (us : List Uid) : loadMany P s us = Remote.loadMany P s us ∨ Failed r m (loadMany P s us) := by
  unfold loadMany Remote.loadMany
  by_cases hr : s.c.root = none
  · left; rw [if_pos hr, if_pos hr]
  · rw [if_neg hr, if_neg hr]
    dsimp only
    have g := h.setExp (ex := s.c.expired.filter (· ∉ us.filter (· ∈ s.c.expired))) s.c.engine fun v hv => h.cexp v (List.mem_filter.1 hv).1
    exact loop_cases us _ g (by
      intro u hu hn
      by_contra k
      exact hn (List.mem_filter.2 ⟨hu, by simpa using Or.inl k⟩))

theorem refresh_cases (h : Good r m s) (us : List Uid) : refresh P s us = Remote.refresh P s us ∨ Failed r m (refresh P s us) := by
  unfold refresh Remote.refresh
  by_cases hu : us = []
  · left; rw [if_pos hu, if_pos hu]
  · rw [if_neg hu, if_neg hu]
    have g := h.expire us
    unfold Remote.expire at g
    revert g
    generalize s.c.expire us = y
    obtain ⟨es, c⟩ := y
    intro g
    dsimp only at g ⊢
    rcases loadMany_cases (P := P) g es with k | ⟨k1, k2, k3⟩
    · left; rw [k]
    · right
      refine ⟨?_, k2, k3⟩
      show Except.map _ (loadMany P _ es).1 = _
      rw [k1]
      rfl

/-! ### queries and commits -/

theorem query_fails (h : Good r m s) (us : List Uid) : Failed r m (query s us) := by
  have hde : deserialize .user ⟨none, s.c.expired, []⟩ s.t = (.ok [], (s.t.expire s.c.expired).2) := rfl
  have hc : (s.t.expire s.c.expired).2.ctx = .user := h.sync.tctx
  have hr : (s.t.expire s.c.expired).2.root ≠ none := by
    show s.t.root ≠ none
    rw [h.troot]; simp
  have hl : Outage.loadByOclass (s.t.expire s.c.expired).2 0 us = (.error .exception, { (s.t.expire s.c.expired).2 with engine := .empty }) := by
    unfold Outage.loadByOclass
    rw [if_neg hr]
    exact Outage.raised_user hc
  have hsv : queryServe us ⟨none, s.c.expired, []⟩ s.t = (none, { (s.t.expire s.c.expired).2 with engine := .empty }) := by
    unfold queryServe
    rw [hde]
    dsimp only
    rw [hl]
  have hq : query s us = (.error .runtimeError, ⟨s.c, { (s.t.expire s.c.expired).2 with engine := .empty }⟩) := by
    unfold query
    have hm : serialize s.c none = (⟨none, s.c.expired, []⟩, s.c) := rfl
    rw [hm]
    dsimp only
    rw [hsv]
  rw [hq]
  refine ⟨rfl, Good.left h ⟨_, rfl, ?_⟩, rfl⟩
  intro v hv hu
  rw [(expire_exact s.t s.c.expired v).1] at hv
  rw [mem_uids] at hu
  tauto

theorem commit_fails (h : Good r m s) (net : Sync.Net) (hn : net ≠ .noRequest) :
    ((net = .fine ∧ (commit s net).1 = .error .runtimeError) ∨ (net = .noResponse ∧ (commit s net).1 = .error .connectionClosed)) ∧ Good r m (commit s net).2 ∧ (commit s net).2.t.engine = .empty := by
  obtain ⟨e, g⟩ := h.arrive
  have hs := g.sync
  have hcmd : commitCmd (arrived s) = (.error .exception, { arrived s with engine := .empty }) := by
    unfold commitCmd
    rw [Lazy.inEngine_user hs.tctx, ← hs.tctx]
  have hsv : serve commitCmd (serialize s.c (some .user)).1 s.t = (none, { arrived s with engine := .empty }) := by
    unfold serve
    rw [e]
    dsimp only
    rw [hcmd]
  have hgood := g.engine s.c.engine .empty
  cases net with
  | noRequest => exact absurd rfl hn
  | noResponse =>
    have hcall : commit s .noResponse = (.error .connectionClosed, ⟨{ s.c with user := .empty }, { arrived s with engine := .empty }⟩) := by
      unfold commit call request
      dsimp only
      rw [if_neg (by decide), if_pos rfl, if_pos rfl, hsv]
      rfl
    rw [hcall]
    exact ⟨Or.inr ⟨rfl, rfl⟩, hgood, rfl⟩
  | fine =>
    have hcall : commit s .fine = (.error .runtimeError, ⟨{ s.c with user := .empty }, { arrived s with engine := .empty }⟩) := by
      unfold commit call request
      dsimp only
      rw [if_neg (by decide), if_neg (by decide), if_pos rfl, hsv]
      rfl
    rw [hcall]
    exact ⟨Or.inl ⟨rfl, rfl⟩, hgood, rfl⟩

end Osp.Down
