import Verif.Down.Lemmas
/-!
# A database that is down, seen through a client (C107)
-/
namespace Osp.Down
open Osp.Sess Osp.Sync Osp.Remote

variable {r : Uid} {m : View} {s : RSt} {P : Params}

/-- One call while the database is down: it does what it always does, or it raises and has no effect. -/
theorem dstep_good (hT : HasType P) (h : Good r m s) (he : s.t.engine = .empty) {o : QOp} (hs : Safe r m s (.down o)) :
    Answers m (.down o) (dstep P s o).1 ∧ Good r (effect m (.down o) (dstep P s o).1) (dstep P s o).2 ∧ (dstep P s o).2.t.engine = .empty := by
  -- every call that is as always
  have same : dstep P s o = qstep P s o → QSafe r m s o → (∃ x, m.qresult o = .ok x) →
      Answers m (.down o) (dstep P s o).1 ∧ Good r (effect m (.down o) (dstep P s o).1) (dstep P s o).2 ∧ (dstep P s o).2.t.engine = .empty := by
    rintro e hq ⟨x, hx⟩
    obtain ⟨a, b, c⟩ := qstep_good hT h he hq
    rw [e, a, hx]
    exact ⟨Or.inl ⟨x, rfl, hx⟩, b, c⟩
  -- every call that fails
  have fail : Failed r m (dstep P s o) → Answers m (.down o) (dstep P s o).1 ∧ Good r (effect m (.down o) (dstep P s o).1) (dstep P s o).2 ∧ (dstep P s o).2.t.engine = .empty := by
    rintro ⟨a, b, c⟩
    rw [a]
    exact ⟨Or.inr (Or.inl rfl), b, c⟩
  have mapped : ∀ {α : Type} {q : Except PyErr α × RSt} {f : α → List (Option Uid)}, Failed r m q → Failed r m (q.1.map f, q.2) := by
    rintro α ⟨q1, q2⟩ f ⟨a, b, c⟩
    dsimp only at a b c
    subst a
    exact ⟨rfl, b, c⟩
  cases o with
  | base o =>
    cases o with
    | create u x => exact same rfl hs ⟨_, rfl⟩
    | modify u f =>
      rcases modify_cases (P := P) h u f with k | k
      · exact same (by show (let (r, s) := modify P s u f; (r.map fun _ => ([] : List (Option Uid)), s)) = _; rw [k]; rfl) hs ⟨_, rfl⟩
      · exact fail (mapped k)
    | delete u =>
      rcases delete_cases (P := P) h u with k | k
      · exact same (by show (let (r, s) := delete P s u; (r.map fun _ => ([] : List (Option Uid)), s)) = _; rw [k]; rfl) hs ⟨_, rfl⟩
      · exact fail (mapped k)
    | read u =>
      rcases read_cases (P := P) h u with k | k
      · exact same (by show (let (r, s) := read P s u; (r.map fun _ => ([] : List (Option Uid)), s)) = _; rw [k]; rfl) hs ⟨_, rfl⟩
      · exact fail (mapped k)
    | load u =>
      rcases load_cases (P := P) h u with k | k
      · exact same k hs ⟨_, rfl⟩
      · exact fail k
    | expire us => exact same rfl hs ⟨_, rfl⟩
    | commit net fl =>
      obtain ⟨a, b, c⟩ := commit_fails h net hs
      show Answers m _ (commit s net).1 ∧ Good r (effect m _ (commit s net).1) (commit s net).2 ∧ _
      rcases a with ⟨rfl, a⟩ | ⟨rfl, a⟩
      · rw [a]; exact ⟨Or.inr (Or.inl rfl), b, c⟩
      · rw [a]; exact ⟨Or.inr (Or.inr ⟨rfl, fl, rfl⟩), b, c⟩
  | query us => exact fail (query_fails h us)
  | loads us =>
    rcases loadMany_cases (P := P) h us with k | k
    · exact same k hs ⟨_, rfl⟩
    · exact fail k
  | refresh us =>
    rcases refresh_cases (P := P) h us with k | k
    · exact same k hs ⟨_, rfl⟩
    · exact fail k

theorem step_good (hT : HasType P) (h : Good r m s) (he : s.t.engine = .empty) {c : Call} (hs : Safe r m s c) :
    Answers m c (step P s c).1 ∧ Good r (effect m c (step P s c).1) (step P s c).2 ∧ (step P s c).2.t.engine = .empty := by
  cases c with
  | up o => exact qstep_good hT h he hs
  | down o => exact dstep_good hT h he hs

theorem run_good (hT : HasType P) : ∀ (cs : List Call) (m : View) (s : RSt), Good r m s → s.t.engine = .empty → Along P r m s cs →
    AllAnswer P m s cs ∧ Good r (expect P m s cs) (run P s cs) ∧ (run P s cs).t.engine = .empty
  | [], _, _, h, he, _ => ⟨trivial, h, he⟩
  | c :: cs, _, _, h, he, ha => by
    obtain ⟨k1, k2, k3⟩ := step_good hT h he ha.1
    obtain ⟨q1, q2, q3⟩ := run_good hT cs _ _ k2 k3 ha.2
    exact ⟨⟨k1, q1⟩, q2, q3⟩

/-- **C107.** For every stored database, every wrapper and every history in normal use through a client, where the database is down during any of the calls (again and again, as long as it pleases): a call made while the database
works returns or raises what it always does, however many calls failed before; a call made while it is down returns what it always does or raises; and afterwards the session has exactly the objects and triples, and
the database contains exactly the data, that the calls that did not fail gave. Partial: `Safe` lists what is excluded, as in C92; `outage_forgets` shows what fails if others change the database. -/
theorem down_atomic_partial (hT : HasType P) (db : Uid → Content) (hr : r ≠ 0) (x : Content) (hx : x ≠ ∅) (cs : List Call)
    (h : Along P r (View.open P db r x) (connect P db r x).2 cs) :
    AllAnswer P (View.open P db r x) (connect P db r x).2 cs ∧ Shows r (expect P (View.open P db r x) (connect P db r x).2 cs) (run P (connect P db r x).2 cs) := by
  obtain ⟨k1, k2, -⟩ := run_good hT cs _ _ (connect_good P db hr hx).2 (connect_engine P db hr hx) h
  exact ⟨k1, k2.shows⟩

/-- Specification: the calls of a history that were not refused because the database was down. -/
def kept (P : Params) : RSt → List Call → List QOp
  | _, [] => []
  | s, .up o :: cs => o :: kept P (step P s (.up o)).2 cs
  | s, .down o :: cs => match (step P s (.down o)).1 with
    | .ok _ => o :: kept P (step P s (.down o)).2 cs
    | .error _ => kept P (step P s (.down o)).2 cs

/-- **C107.** What the user expects is what the history without the refused calls gives: they leave no trace. -/
theorem down_skipped : ∀ (cs : List Call) (m : View) (s : RSt), expect P m s cs = m.qrun (kept P s cs)
  | [], _, _ => rfl
  | .up o :: cs, m, s => down_skipped cs (m.qstep o) (step P s (.up o)).2
  | .down o :: cs, m, s => by
    unfold expect kept
    cases hq : (step P s (.down o)).1 with
    | ok x => exact down_skipped cs (m.qstep o) _
    | error e => exact down_skipped cs m _

/-- **C107.** The first commit after the database is up again stores everything the session shows, also what commits that failed in between should have stored; the objects and triples of the session stay; nothing is left to be committed. -/
theorem down_commit_stores_partial (hT : HasType P) (db : Uid → Content) (hr : r ≠ 0) (x : Content) (hx : x ≠ ∅) (cs : List Call)
    (h : Along P r (View.open P db r x) (connect P db r x).2 cs) (net : Sync.Net) (hn : net ≠ .noRequest) (s s' : RSt)
    (hs0 : s = run P (connect P db r x).2 cs) (hs : s' = (Remote.commit s net none).2) :
    (∀ u ∈ s'.c.reg, s'.t.db (if u = r then 0 else u) = s'.c.g u) ∧ s'.c.user = .empty ∧ s'.t.user = .empty ∧ (∀ u, u ∈ s'.c.reg ↔ u ∈ s.c.reg) ∧ ∀ u ∈ s'.c.reg, s'.c.g u = s.c.g u := by
  obtain ⟨-, k, -⟩ := run_good hT cs _ _ (connect_good P db hr hx).2 (connect_engine P db hr hx) h
  rw [← hs0] at k
  obtain ⟨-, k2, k3, k4⟩ := k.commit net hn
  rw [← hs] at k2 k3 k4
  have hh : ∀ u, u ∈ s'.c.reg ↔ u ∈ s.c.reg := fun u => (k2.has u).trans (k.has u).symm
  have hv : ∀ u ∈ s'.c.reg, s'.c.g u = s.c.g u := by
    intro u hu
    rw [k2.shows.view u hu, k.shows.view u ((hh u).1 hu)]
    rfl
  refine ⟨fun u hu => ?_, k3, k4, hh, hv⟩
  rw [k2.shows.stored u (has_nonzero k2 ((k2.has u).1 hu)), k2.shows.view u hu]
  rfl

/-! ### which calls fail -/

theorem load1_offline {f f' : List Uid → St → Res (List (Option Uid))} {u : Uid} {c t : St} (h1 : u ∈ c.reg) (h2 : u ∉ c.expired) : load1 P .fine f u c t = load1 P .fine f' u c t := by
  unfold load1
  by_cases hr : c.root = none
  · rw [if_pos hr, if_pos hr]
  · rw [if_neg hr, if_neg hr]
    dsimp only
    rw [if_pos ⟨h1, h2⟩, if_pos ⟨h1, h2⟩]

theorem read_offline {s : RSt} {u : Uid} (h : u ∉ s.c.expired) : read P s u = Remote.read P s u := by
  unfold read Remote.read Sync.read
  rw [if_neg h, if_neg h]

theorem loop_offline {us missing expired : List Uid} : ∀ (rest : List Uid) (s : RSt), (∀ u ∈ rest, u ∉ missing) →
    manyLoop P us missing expired rest none s = Remote.manyLoop P us missing expired rest none s
  | [], _, _ => rfl
  | u :: rest, s, h => by
    unfold manyLoop Remote.manyLoop
    dsimp only
    have hu := h u List.mem_cons_self
    rw [if_pos (c := u ∉ missing) hu, if_pos (c := u ∉ missing) hu]
    split
    · rfl
    · rw [loop_offline rest _ fun v hv => h v (List.mem_cons_of_mem _ hv)]
      generalize Remote.manyLoop P us missing expired rest _ _ = q
      obtain ⟨q1, q2⟩ := q
      cases q1 <;> rfl

/-- **C107.** A call that needs no data does not notice that the database is down: creating objects, `expire`, and reading, changing, deleting or loading objects the session has and that are not expired. In every state. -/
theorem down_offline (s : RSt) (o : QOp) (h : Offline s o) : dstep P s o = qstep P s o := by
  cases o with
  | base o =>
    cases o with
    | create u x => rfl
    | modify u f =>
      have e : modify P s u f = Remote.modify P s u f := by
        unfold modify Remote.modify
        rw [read_offline h]
        generalize Remote.read P s u = q
        obtain ⟨q1, q2⟩ := q
        cases q1 <;> rfl
      show (let (r, s) := modify P s u f; (r.map fun _ => ([] : List (Option Uid)), s)) = _
      rw [e]; rfl
    | delete u =>
      have e : delete P s u = Remote.delete P s u := by
        unfold delete Remote.delete
        rw [read_offline h]
        generalize Remote.read P s u = q
        obtain ⟨q1, q2⟩ := q
        cases q1 <;> rfl
      show (let (r, s) := delete P s u; (r.map fun _ => ([] : List (Option Uid)), s)) = _
      rw [e]; rfl
    | read u =>
      show (let (r, s) := read P s u; (r.map fun _ => ([] : List (Option Uid)), s)) = _
      rw [read_offline h]; rfl
    | load u =>
      show load P s u = Remote.load P s u
      unfold load Remote.load
      rw [load1_offline h.1 h.2]
    | expire us => rfl
    | commit net fl => exact h.elim
  | query us => exact h.elim
  | loads us =>
    show loadMany P s us = Remote.loadMany P s us
    unfold loadMany Remote.loadMany
    by_cases hr : s.c.root = none
    · rw [if_pos hr, if_pos hr]
    · rw [if_neg hr, if_neg hr]
      dsimp only
      apply loop_offline
      intro u hu k
      have := (List.mem_filter.1 k).2
      simp only [List.mem_filter, decide_eq_true_eq] at this
      have q := h u hu
      tauto
  | refresh us =>
    obtain rfl : us = [] := h
    rfl

/-- The server does not get an object it needs. -/
theorem fetch_raises {us : List Uid} {t : St} (hc : t.ctx = .user) (hr : t.root ≠ none) {u : Uid} (hu : u ∈ us) (hm : u ∉ t.reg ∨ u ∈ t.expired) : ∃ t', fetch P us t = (.error .exception, t') := by
  have key : ∀ (uids missing : List Uid) (us : List Uid) (t : St), t.ctx = .user → (∀ v ∈ us, v ∉ missing → v ∈ t.reg) → u ∈ us → u ∈ missing →
      ∃ t', Outage.loadLoop P uids missing 0 us t = (.error .exception, t') := by
    intro uids missing us
    induction us with
    | nil => intro _ _ _ h; exact absurd h (by simp)
    | cons v us ih =>
      intro t hc hn hu hm
      unfold Outage.loadLoop
      by_cases hv : v ∈ missing
      · rw [if_pos ⟨hv, rfl⟩]
        exact ⟨_, Outage.raised_user hc⟩
      · rw [if_neg (by tauto), if_neg hv]
        have e : t.inEngine (St.loadStep P uids missing v) = (.ok (some v), { t with engine := .empty }) := by
          rw [Lazy.inEngine_user hc]
          unfold St.loadStep
          rw [if_pos hv, if_pos (hn v List.mem_cons_self hv), ← hc]
        rw [e]
        dsimp only
        obtain ⟨t', k⟩ := ih { t with engine := .empty } hc (fun w hw => hn w (List.mem_cons_of_mem _ hw)) ((List.mem_cons.1 hu).resolve_left (by rintro rfl; exact hv hm)) hm
        rw [k]
        exact ⟨t', rfl⟩
  unfold fetch Outage.load
  rw [if_neg hr]
  dsimp only
  refine key _ _ _ _ hc ?_ hu ?_
  · intro v hv hn
    by_contra k
    exact hn (List.mem_filter.2 ⟨hv, by simpa using Or.inl k⟩)
  · refine List.mem_filter.2 ⟨hu, ?_⟩
    simp only [List.mem_filter, decide_eq_true_eq]
    tauto

theorem request_raises {E us : List Uid} {c t : St} (hc : t.ctx = .user) (hr : t.root ≠ none) {u : Uid} (hu : u ∈ us) (hm : u ∉ t.reg ∨ (u ∈ E ∧ u ∉ t.user.uids)) :
    (request .fine ⟨none, E, []⟩ (fetch P us) c t).res = .error .runtimeError := by
  have hde : deserialize .user ⟨none, E, []⟩ t = (.ok [], (t.expire E).2) := rfl
  obtain ⟨t', k⟩ := fetch_raises (P := P) (us := us) (t := (t.expire E).2) hc hr hu (by
    by_cases q : u ∈ t.reg
    · right
      obtain ⟨a, b⟩ := hm.resolve_left fun k => k q
      rw [mem_uids] at b
      rw [(expire_exact t E u).1]
      tauto
    · left; exact q)
  unfold request serve
  rw [hde]
  dsimp only
  rw [k]
  rfl

theorem load1_raises (h : Good r m s) {u : Uid} (hx : u ∈ s.c.expired) (hu : u ∉ s.t.user.uids) : (load1 P .fine (fetch P) u s.c s.t).res = .error .runtimeError := by
  unfold load1
  rw [if_neg (by rw [h.croot]; simp)]
  dsimp only
  rw [if_neg (by tauto), if_pos hx]
  have k := request_raises (P := P) (E := [u]) (us := [u]) (c := { s.c with engine := .empty, ctx := .engine, expired := del s.c.expired u }) h.sync.tctx (by rw [h.troot]; simp) (u := u) (by simp) (Or.inr ⟨by simp, hu⟩)
  revert k
  generalize request .fine ⟨none, [u], []⟩ (fetch P [u]) _ s.t = q
  intro k
  rw [k]

theorem read_raises (h : Good r m s) {u : Uid} (hx : u ∈ s.c.expired) (hu : u ∉ s.t.user.uids) : (read P s u).1 = .error .runtimeError := by
  unfold read Sync.read
  rw [if_pos hx]
  obtain ⟨hh, hn⟩ := h.cexp u hx
  have hes : (s.c.expire [u]).1 = [u] := by simp [St.expire, hn, (h.has u).2 hh]
  have hex : u ∈ (s.c.expire [u]).2.expired := by
    rw [(expire_exact s.c [u] u).1]
    exact ⟨(h.has u).2 hh, Or.inl hx⟩
  have g := h.expire [u]
  unfold Remote.expire at g
  revert hes hex g
  generalize s.c.expire [u] = y
  obtain ⟨es, c⟩ := y
  intro hes hex g
  dsimp only at hes hex g ⊢
  subst hes
  dsimp only
  have k := load1_raises (P := P) g hex hu
  dsimp only at k
  rw [k]
  rfl

/-- **C107.** The other calls are refused with an exception, never answered from old data: reading, changing, deleting or loading an expired object (unless a change of it was sent to the server and is not committed yet), loading
an object the session does not have, queries and commits. -/
theorem down_refused_partial (hT : HasType P) (db : Uid → Content) (hr : r ≠ 0) (x : Content) (hx : x ≠ ∅) (cs : List Call)
    (h : Along P r (View.open P db r x) (connect P db r x).2 cs) (s : RSt) (hs : s = run P (connect P db r x).2 cs) :
    (∀ u ∈ s.c.expired, u ∉ s.t.user.uids → (dstep P s (.base (.read u))).1 = .error .runtimeError ∧ (∀ f, (dstep P s (.base (.modify u f))).1 = .error .runtimeError) ∧
      (dstep P s (.base (.delete u))).1 = .error .runtimeError ∧ (dstep P s (.base (.load u))).1 = .error .runtimeError) ∧
    (∀ u, u ∉ s.c.reg → u ∉ s.c.user.uids → (dstep P s (.base (.load u))).1 = .error .runtimeError) ∧
    (∀ us, (dstep P s (.query us)).1 = .error .runtimeError) ∧
    ∀ fail, (dstep P s (.base (.commit .fine fail))).1 = .error .runtimeError := by
  obtain ⟨-, k, -⟩ := run_good hT cs _ _ (connect_good P db hr hx).2 (connect_engine P db hr hx) h
  rw [← hs] at k
  refine ⟨fun u hu hn => ?_, fun u hu hn => ?_, fun us => (query_fails k us).1, fun fail => ?_⟩
  · have q := read_raises (P := P) k hu hn
    refine ⟨?_, fun f => ?_, ?_, load1_raises (P := P) k hu hn⟩
    · show Except.map _ (read P s u).1 = _
      rw [q]; rfl
    · show Except.map _ (modify P s u f).1 = _
      unfold modify
      revert q
      generalize read P s u = y
      obtain ⟨y1, y2⟩ := y
      intro q
      dsimp only at q
      subst q
      rfl
    · show Except.map _ (delete P s u).1 = _
      unfold delete
      revert q
      generalize read P s u = y
      obtain ⟨y1, y2⟩ := y
      intro q
      dsimp only at q
      subst q
      rfl
  · show (load1 P .fine (fetch P) u s.c s.t).res = _
    have hxu : u ∉ s.c.expired := fun q => hu ((k.has u).2 (k.cexp u q).1)
    unfold load1
    rw [if_neg (by rw [k.croot]; simp)]
    dsimp only
    rw [if_neg (by tauto), if_neg hxu]
    have q := request_raises (P := P) (E := del s.c.expired u) (us := [u]) (c := { s.c with engine := .empty, ctx := .engine, expired := del s.c.expired u }) k.sync.tctx (by rw [k.troot]; simp) (u := u) (by simp)
      (Or.inl fun q => hu ((k.sync.same u hn).1.2 q))
    revert q
    generalize request .fine ⟨none, del s.c.expired u, []⟩ (fetch P [u]) _ s.t = y
    intro q
    rw [q]
  · obtain ⟨a, -, -⟩ := commit_fails k .fine (by decide)
    rcases a with ⟨-, a⟩ | ⟨q, -⟩
    · exact a
    · exact (nomatch q)

end Osp.Down
