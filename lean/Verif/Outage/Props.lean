import Verif.Outage.Lemmas
/-!
# Calls during which the database fails (C106)
-/
namespace Osp.Outage
open Osp.Sess
open Osp.Multi (J Tidy Trace)
open Osp.Lazy (JT)

theorem pending_uids {s : St} {u : Uid} : Pending s u ↔ u ∈ s.user.uids := (mem_uids s.user u).symm

theorem Hit.jt {s s' : St} (h : JT s) (hroot : s.root ≠ none) (k : Hit s s') : JT s' := h.of k.ctx k.tidy k.root hroot k.user

/-! ### one call that looks at objects -/

/-- What a call that looks at objects does if the backend fails in it: either it is as without the failure, or it raises the exception of the backend. -/
theorem look_cases {P : Params} {s : St} (h : JT s) (n : Nat) {o : Op} (hl : Looks o) :
    step P s (.hit n o) = Sess.step P s o ∨ (s.root ≠ none ∧ ∃ s', step P s (.hit n o) = (.error .exception, s') ∧ Hit s s' ∧ ∀ v, Spares s v o → (v ∈ s'.reg ↔ v ∈ s.reg) ∧ s'.g v = s.g v) := by
  have two : ∀ u, ∀ f : St → Res Unit, (match notifyRead P s n u with
        | (.error e, s) => (.error e, s)
        | (.ok _, s) => f s : Res Unit) = (match s.notifyRead P u with
        | (.error e, s) => (.error e, s)
        | (.ok _, s) => f s) ∨ (s.root ≠ none ∧ ∃ s', (match notifyRead P s n u with
        | (.error e, s) => (.error e, s)
        | (.ok _, s) => f s : Res Unit) = (.error .exception, s') ∧ Hit s s' ∧ ∀ v, Pending s v → (v ∈ s'.reg ↔ v ∈ s.reg) ∧ s'.g v = s.g v) := by
    intro u f
    by_cases hroot : s.root = none
    · left; rw [read_none h hroot]
    · rcases read_cases (P := P) hroot h.tidy h.ctx n u with k | ⟨s', a, b, c, _⟩
      · left; rw [k]
      · right
        rw [a]
        exact ⟨hroot, s', rfl, b, fun v hv => c v (Or.inl (pending_uids.1 hv))⟩
  cases o with
  | load us =>
    show Res.unit (load P s n us) = Res.unit (s.load P us) ∨ (_ ∧ ∃ s', Res.unit (load P s n us) = _ ∧ _)
    by_cases hroot : s.root = none
    · left; unfold load St.load; rw [if_pos hroot, if_pos hroot]
    · by_cases hn : n < (us.filter (Absent s ·)).length
      · right
        obtain ⟨done, u, rest, s', a1, a2, a3, a4, a5, a6, a7, a8, a9, a10, a11, _⟩ := load_short (P := P) hroot h.tidy h.ctx hn
        rw [a4]
        refine ⟨hroot, s', rfl, ⟨a5, a6, a7, a8, a9, fun v => ?_⟩, fun v hv => a11 v (Or.inr hv)⟩
        by_cases hv : v ∈ done ∧ Absent s v
        · exact Or.inr (a10 v hv.1 hv.2)
        · exact Or.inl (a11 v (by tauto))
      · left; rw [load_enough hn]
  | loadByOclass us =>
    show Res.unit (loadByOclass s n us) = Res.unit (s.loadByOclass us) ∨ (_ ∧ ∃ s', Res.unit (loadByOclass s n us) = _ ∧ _)
    unfold loadByOclass St.loadByOclass
    by_cases hroot : s.root = none
    · left; rw [if_pos hroot, if_pos hroot]
    · right
      rw [if_neg hroot]
      obtain ⟨xs, s', a1, a2, a3, a4, a5, a6, a7, a8⟩ := found_cell (us.take n) hroot h.tidy h.ctx
      rw [a1]
      dsimp only
      rw [raised_user a5]
      exact ⟨hroot, _, rfl, ⟨a2, a3, a4, a5, a6, a7⟩, fun v hv => a8 v fun k => hv (List.mem_of_mem_take k)⟩
  | refresh us =>
    show refresh P s n us = s.refresh P us ∨ (_ ∧ ∃ s', refresh P s n us = _ ∧ _)
    by_cases hroot : s.root = none
    · left
      have he : (s.expire us).1 = [] ∧ (s.expire us).2.root = none := by
        refine ⟨List.eq_nil_iff_forall_not_mem.2 fun v hv => ?_, hroot⟩
        have := ((mem_expire_fst s us v).1 hv).2.2
        rw [(h.closed hroot).1] at this
        simp at this
      unfold refresh St.refresh
      split
      · rfl
      · rw [show s.expire us = ((s.expire us).1, (s.expire us).2) from rfl]
        dsimp only
        unfold load St.load
        rw [if_pos he.2, if_pos he.2]
    · rcases refresh_cases (P := P) hroot h.tidy h.ctx n us with k | ⟨s', a, b, c, _⟩
      · exact Or.inl k
      · exact Or.inr ⟨hroot, s', a, b, fun v hv => c v (Or.inl (pending_uids.1 hv))⟩
  | read u =>
    show notifyRead P s n u = s.notifyRead P u ∨ (_ ∧ ∃ s', notifyRead P s n u = _ ∧ _)
    by_cases hroot : s.root = none
    · left; exact read_none h hroot n u
    · rcases read_cases (P := P) hroot h.tidy h.ctx n u with k | ⟨s', a, b, c, _⟩
      · exact Or.inl k
      · exact Or.inr ⟨hroot, s', a, b, fun v hv => c v (Or.inl (pending_uids.1 hv))⟩
  | modify u f => exact two u _
  | delete u => exact two u _
  | _ => exact absurd hl (by simp [Looks])

/-! ### opening -/

theorem store_user {s : St} (hc : s.ctx = .user) (u : Uid) (c : Content) :
    s.store u c = { s with user := s.user.store s.reg u, reg := ins s.reg u, g := Function.update s.g u (s.g u ∪ c), root := match s.root with
      | none => some u
      | some r => some r } := by
  unfold St.store
  simp only [St.setBuf, St.buf, hc]
  rfl

/-- The creation of the wrapper if the initialisation fails. -/
theorem create_first {P : Params} {s : St} (h : JT s) (hn : s.root = none) (n : Nat) {u : Uid} (hu : u ≠ 0) (c : Content) :
    ∃ s', step P s (.hit n (.create u c)) = (.error .exception, s') ∧ JT s' ∧ s'.root = some u ∧ s'.db = s.db ∧ u ∈ s'.reg ∧ u ∈ s'.user.added := by
  have hs := store_user h.ctx u c
  obtain ⟨hr, he⟩ := h.closed hn
  have htidy : Tidy (s.store u c) := by
    rw [hs]
    intro v hv
    have hv' : v ∉ ins s.reg u := hv
    rw [mem_ins] at hv'
    have hvu : v ≠ u := by tauto
    show Function.update s.g u _ v = ∅
    rw [Function.update_of_ne hvu]
    exact h.tidy v (by tauto)
  have h0 : 0 ∉ (s.store u c).user.uids := by
    rw [hs]
    intro k
    exact h.zero (((Multi.uids_store s.user s.reg u).2 0 (Ne.symm hu)).1 k)
  have hctx : (s.store u c).ctx = .user := by rw [hs]; exact h.ctx
  have hroot : (s.store u c).root = some u := by rw [hs]; dsimp only; rw [hn]
  have hreg : u ∈ (s.store u c).reg := by rw [hs]; exact (mem_ins _ _ _).2 (Or.inr rfl)
  have hadd : u ∈ (s.store u c).user.added := by
    rw [hs]
    dsimp only
    unfold Buf.store
    dsimp only
    rw [if_neg (by rw [hr]; simp)]
    exact (mem_ins _ _ _).2 (Or.inr rfl)
  have hdb : (s.store u c).db = s.db := by rw [hs]
  show ∃ s', create P s n u c = _ ∧ _
  unfold create
  rw [if_neg hu, if_pos hn]
  generalize s.store u c = t at *
  rw [Lazy.inEngine_user hctx]
  generalize (P.order _).take n = us
  obtain ⟨s', c1, c2, c3, c4, c5, c6, c7, _⟩ := loadAll_spec us { t with engine := .empty, ctx := .engine } rfl (by simp [Buf.empty]) (by show t.root ≠ none; rw [hroot]; simp) htidy
  rw [c1]
  dsimp only
  have hroot' : s'.root = some u := c4.trans hroot
  refine ⟨_, rfl, ⟨rfl, c5, fun k => absurd (hroot'.symm.trans k) (by simp), by show 0 ∉ s'.user.uids; rw [c2]; exact h0, fun _ _ _ _ => trivial⟩, hroot', c3.trans hdb, ?_, by show u ∈ s'.user.added; rw [c2]; exact hadd⟩
  show u ∈ s'.reg
  by_cases hin : u ∈ us ∧ St.stored { t with engine := .empty, ctx := .engine } u ≠ ∅
  · exact (c6 u hin.1 hin.2).1
  · exact (c7 u (by tauto)).1.2 hreg

/-! ### histories -/

theorem step_jt {P : Params} {s : St} (h : JT s) {c : Call} (hp : Proper c) : JT (step P s c).2 := by
  have fine : ∀ o, Lazy.Proper (.call o) → JT (Sess.step P s o).2 := fun o k => Lazy.step_JT h k
  have look : ∀ n o, Looks o → Lazy.Proper (.call o) → JT (step P s (.hit n o)).2 := by
    intro n o hl k
    rcases look_cases (P := P) h n hl with e | ⟨hroot, s', e, a, _⟩
    · rw [e]; exact fine o k
    · rw [e]; exact a.jt h hroot
  cases c with
  | fine o => exact fine o (by cases o <;> exact hp)
  | hit n o =>
    cases o with
    | create u c =>
      by_cases hu : u = 0
      · have : step P s (.hit n (.create u c)) = (.error .valueError, s) := by show create P s n u c = _; unfold create; rw [if_pos hu]
        rw [this]; exact h
      · by_cases hn : s.root = none
        · obtain ⟨s', a, b, _⟩ := create_first (P := P) h hn n hu c
          rw [a]; exact b
        · have : step P s (.hit n (.create u c)) = Sess.step P s (.create u c) := by
            show create P s n u c = s.create P u c
            unfold create St.create
            rw [if_neg hu, if_neg hu, if_neg hn, if_neg hn]
          rw [this]; exact fine _ trivial
    | modify u f => exact look n _ trivial hp
    | delete u => exact look n _ trivial hp
    | read u => exact look n _ trivial trivial
    | load us => exact look n _ trivial trivial
    | loadByOclass us => exact look n _ trivial trivial
    | refresh us => exact look n _ trivial trivial
    | commit f => exact fine (.commit (some n)) trivial
    | drop u => exact fine (.drop u) hp
    | expire us => exact fine (.expire us) trivial
    | expireAll => exact fine .expireAll trivial
    | extern k c => exact fine (.extern k c) trivial

theorem run_jt {P : Params} : ∀ (h : List Call) {s : St}, JT s → (∀ c ∈ h, Proper c) → JT (run P s h)
  | [], _, hs, _ => hs
  | c :: h, _, hs, hp => run_jt h (step_jt hs (hp c List.mem_cons_self)) fun x hx => hp x (List.mem_cons_of_mem _ hx)

theorem reach (P : Params) (db : Uid → Content) {h : List Call} (hp : ∀ c ∈ h, Proper c) : JT (run P (St.opened db) h) := run_jt h (J.opened _ db) hp

theorem run_append (P : Params) (s : St) (h k : List Call) : run P s (h ++ k) = run P (run P s h) k := List.foldl_append

/-! ### the claim -/

/-- **C106.** After any history of calls - whichever of them the database failed in - a call that looks at objects, or looks at one before it changes it, and in which the database fails, is either not affected at all or raises
the exception; then the database, the list of pending changes and the wrapper are as before, every object is as it was or as it is stored, and the objects the call spares are as they were. -/
theorem failed_look (P : Params) (db : Uid → Content) (h : List Call) (hp : ∀ c ∈ h, Proper c) (n : Nat) (o : Op) (hl : Looks o) :
    let s := run P (St.opened db) h
    let r := step P s (.hit n o)
    r = Sess.step P s o ∨ (r.1 = .error .exception ∧ r.2.db = s.db ∧ r.2.user = s.user ∧ r.2.root = s.root ∧ (∀ v, OldOrStored s r.2 v) ∧ ∀ v, Spares s v o → (v ∈ r.2.reg ↔ v ∈ s.reg) ∧ r.2.g v = s.g v) := by
  intro s r
  rcases look_cases (P := P) (reach P db hp) n hl with e | ⟨_, s', e, a, b⟩
  · exact Or.inl e
  · right
    have : r = (.error .exception, s') := e
    rw [this]
    exact ⟨rfl, a.db, a.user, a.root, a.cell, b⟩

/-- **C106.** What a load in which the database fails does exactly. The database answers `n` requests. If the load asks for no more than `n` objects the session has no current copy of, nothing is different from a load in
which the database does not fail. Otherwise the load raises; the objects it had asked for before are as stored, all others are as they were - but *all* objects the load was called with have lost their expiry marks, the marks of the
others are kept. -/
theorem failed_load (P : Params) (db : Uid → Content) (h : List Call) (hp : ∀ c ∈ h, Proper c) (hroot : (run P (St.opened db) h).root ≠ none) (n : Nat) (uids : List Uid) :
    let s := run P (St.opened db) h
    let r := step P s (.hit n (.load uids))
    if (uids.filter (Absent s ·)).length ≤ n then r = Sess.step P s (.load uids)
    else r.1 = .error .exception ∧ r.2.db = s.db ∧ r.2.user = s.user ∧ ∃ done u rest, uids = done ++ u :: rest ∧ Absent s u ∧ (done.filter (Absent s ·)).length = n ∧
      (∀ v ∈ done, Absent s v → (v ∈ r.2.reg ↔ s.stored v ≠ ∅) ∧ r.2.g v = s.stored v) ∧ (∀ v, v ∉ done ∨ ¬ Absent s v → (v ∈ r.2.reg ↔ v ∈ s.reg) ∧ r.2.g v = s.g v) ∧
      (∀ v ∈ uids, v ∉ r.2.expired) ∧ ∀ v, v ∉ uids → v ∈ s.expired → v ∈ s.reg → v ∈ r.2.expired := by
  intro s r
  have hj := reach P db hp
  split
  · rename_i hn
    show Res.unit (load P s n uids) = Res.unit (s.load P uids)
    rw [load_enough (by omega)]
  · rename_i hn
    obtain ⟨done, u, rest, s', a1, a2, a3, a4, a5, a6, a7, a8, a9, a10, a11, a12, a13⟩ := load_short (P := P) (s := s) hroot hj.tidy hj.ctx (n := n) (uids := uids) (by omega)
    have : r = (.error .exception, s') := by show Res.unit (load P s n uids) = _; rw [a4]; rfl
    rw [this]
    exact ⟨rfl, a6, a5, done, u, rest, a1, a2, a3, a10, a11, a12, a13⟩

/-- **C106** (partial: of the objects the session did not have). After a load in which the database failed the same load, when the database works again, gives every object the session did not have before as it is stored. -/
theorem repeated_load_partial (P : Params) (db : Uid → Content) (h : List Call) (hp : ∀ c ∈ h, Proper c) (hroot : (run P (St.opened db) h).root ≠ none) (n : Nat) (uids : List Uid) :
    let s := run P (St.opened db) h
    let r := step P (step P s (.hit n (.load uids))).2 (.fine (.load uids))
    r.1 = .ok () ∧ r.2.db = s.db ∧ r.2.user = s.user ∧ ∀ v ∈ uids, v ∉ s.reg → (v ∈ r.2.reg ↔ s.stored v ≠ ∅) ∧ r.2.g v = s.stored v := by
  intro s r
  have hj := reach P db hp
  have first : ∃ s', (step P s (.hit n (.load uids))).2 = s' ∧ s'.user = s.user ∧ s'.db = s.db ∧ s'.root = s.root ∧ s'.ctx = .user ∧ Tidy s' ∧
      ∀ v ∈ uids, v ∉ s.reg → (v ∉ s'.reg ∨ ((v ∈ s'.reg ↔ s.stored v ≠ ∅) ∧ s'.g v = s.stored v)) := by
    by_cases hn : n < (uids.filter (Absent s ·)).length
    · obtain ⟨done, u, rest, s', a1, a2, a3, a4, a5, a6, a7, a8, a9, a10, a11, _⟩ := load_short (P := P) (s := s) hroot hj.tidy hj.ctx hn
      refine ⟨s', by show (Res.unit (load P s n uids)).2 = _; rw [a4]; rfl, a5, a6, a7, a8, a9, fun v hv hr => ?_⟩
      by_cases hd : v ∈ done
      · exact Or.inr (a10 v hd (Or.inl hr))
      · exact Or.inl fun k => hr ((a11 v (Or.inl hd)).1.1 k)
    · obtain ⟨xs, s', a1, a2, a3, a4, a5, a6, a7, a8⟩ := load_fine (P := P) (s := s) hroot hj.tidy hj.ctx uids
      refine ⟨s', by show (Res.unit (load P s n uids)).2 = _; rw [load_enough hn, a1]; rfl, a2, a3, a4, a5, a6, fun v hv hr => Or.inr (a7 v hv (Or.inl hr))⟩
  obtain ⟨s', b1, b2, b3, b4, b5, b6, b7⟩ := first
  obtain ⟨xs, t, c1, c2, c3, c4, c5, c6, c7, c8⟩ := load_fine (P := P) (s := s') (by rw [b4]; exact hroot) b6 b5 uids
  have hr : r = (.ok (), t) := by
    show Res.unit ((step P s (.hit n (.load uids))).2.load P uids) = _
    rw [b1, c1]; rfl
  rw [hr]
  refine ⟨rfl, c3.trans b3, c2.trans b2, fun v hv hn => ?_⟩
  have hst := stored_eq b4 b3 v
  by_cases ha : Absent s' v
  · have := c7 v hv ha
    rw [hst] at this
    exact this
  · rcases b7 v hv hn with k | ⟨k1, k2⟩
    · exact absurd (Or.inl k) ha
    · obtain ⟨q1, q2⟩ := c8 v (Or.inr ha)
      exact ⟨q1.trans k1, q2.trans k2⟩

/-- **C106**, what is missing: the objects the session had in an expired copy. If the load did not get to them, they are neither reloaded when the load is repeated nor when they are read: they show their old contents until somebody
refreshes or expires them explicitly. -/
theorem repeated_load_keeps_old (P : Params) (db : Uid → Content) (h : List Call) (hp : ∀ c ∈ h, Proper c) (hroot : (run P (St.opened db) h).root ≠ none) (n : Nat) (done : List Uid) (u : Uid) (rest : List Uid) :
    let s := run P (St.opened db) h
    Absent s u → (done.filter (Absent s ·)).length = n → ∀ v ∈ u :: rest, v ∉ done → v ∈ s.reg →
      let t := (step P s (.hit n (.load (done ++ u :: rest)))).2
      let r := step P t (.fine (.load (done ++ u :: rest)))
      v ∈ r.2.reg ∧ r.2.g v = s.g v ∧ step P t (.fine (.read v)) = (.ok (), t) ∧ t.g v = s.g v := by
  intro s ha hd v hv hvd hr t r
  have hj := reach P db hp
  have hlen : n < ((done ++ u :: rest).filter (Absent s ·)).length := by
    rw [List.filter_append, List.length_append, hd, List.filter_cons_of_pos (by simpa using ha), List.length_cons]
    omega
  obtain ⟨done', u', rest', s', a1, a2, a3, a4, a5, a6, a7, a8, a9, a10, a11, a12, _⟩ := load_short (P := P) (s := s) hroot hj.tidy hj.ctx hlen
  have ht : t = s' := by show (Res.unit (load P s n _)).2 = _; rw [a4]; rfl
  have hdd : done' = done := by
    have h1 : ∀ (d d' : List Uid) (x x' : Uid) (r r' : List Uid), d ++ x :: r = d' ++ x' :: r' → Absent s x → Absent s x' → (d.filter (Absent s ·)).length = (d'.filter (Absent s ·)).length → d' = d := by
      intro d
      induction d with
      | nil =>
        intro d' x x' r r' e hx hx' hl
        cases d' with
        | nil => rfl
        | cons y ys =>
          simp only [List.nil_append, List.cons_append, List.cons.injEq] at e
          obtain ⟨rfl, _⟩ := e
          rw [List.filter_cons_of_pos (by simpa using hx)] at hl
          simp at hl
      | cons z zs ih =>
        intro d' x x' r r' e hx hx' hl
        cases d' with
        | nil =>
          simp only [List.nil_append, List.cons_append, List.cons.injEq] at e
          obtain ⟨rfl, _⟩ := e
          rw [List.filter_cons_of_pos (by simpa using hx')] at hl
          simp at hl
        | cons y ys =>
          simp only [List.cons_append, List.cons.injEq] at e
          obtain ⟨rfl, e2⟩ := e
          have : ys = zs := ih ys x x' r r' e2 hx hx' (by
            by_cases hz : Absent s z
            · rw [List.filter_cons_of_pos (by simpa using hz), List.filter_cons_of_pos (by simpa using hz)] at hl
              simpa using hl
            · rw [List.filter_cons_of_neg (by simpa using hz), List.filter_cons_of_neg (by simpa using hz)] at hl
              exact hl)
          rw [this]
    exact h1 done done' u u' rest rest' a1 ha a2 (hd.trans a3.symm)
  subst hdd
  obtain ⟨b1, b2⟩ := a11 v (Or.inl hvd)
  have hexp : v ∉ s'.expired := a12 v (List.mem_append_right _ hv)
  have hna : ¬ Absent s' v := by
    unfold Absent
    rintro (k | k)
    · exact k (b1.2 hr)
    · exact hexp k
  obtain ⟨xs, w, c1, _, _, _, _, _, _, c8⟩ := load_fine (P := P) (s := s') (by rw [a7]; exact hroot) a9 a8 (done' ++ u :: rest)
  have hrr : r = (.ok (), w) := by
    show Res.unit (t.load P _) = _
    rw [ht, c1]; rfl
  obtain ⟨q1, q2⟩ := c8 v (Or.inr hna)
  rw [hrr, ht]
  refine ⟨q1.2 (b1.2 hr), q2.trans b2, ?_, b2⟩
  show s'.notifyRead P v = _
  unfold St.notifyRead
  rw [if_neg hexp]

/-- **C106.** Nothing is wrong for good: whatever the database failed in before, an explicit `refresh` shows every object of the session without pending changes as it is stored. -/
theorem refresh_recovers (P : Params) (db : Uid → Content) (h : List Call) (hp : ∀ c ∈ h, Proper c) (hroot : (run P (St.opened db) h).root ≠ none) (us : List Uid) :
    let s := run P (St.opened db) h
    let r := step P s (.fine (.refresh us))
    r.1 = .ok () ∧ ∀ v ∈ us, ¬ Pending s v → v ∈ s.reg → (v ∈ r.2.reg ↔ s.stored v ≠ ∅) ∧ r.2.g v = s.stored v := by
  intro s r
  have hj := reach P db hp
  obtain ⟨s', a, _, b⟩ := Multi.refresh_weak (P := P) (s := s) hroot hj.tidy hj.ctx us
  have hr : r = (.ok (), s') := a
  rw [hr]
  exact ⟨rfl, fun v hv hn => b v hv fun k => hn (pending_uids.2 k)⟩

/-- The exact effect of reading an expired object if the database does not answer. -/
theorem read_zero {P : Params} {s : St} (h : JT s) (hroot : s.root ≠ none) {v : Uid} (he : v ∈ s.expired) (hr : v ∈ s.reg) (hn : ¬ Pending s v) :
    ∃ s', notifyRead P s 0 v = (.error .exception, s') ∧ JT s' ∧ s'.root ≠ none ∧ s'.db = s.db ∧ s'.user = s.user ∧ v ∈ s'.reg ∧ s'.g v = s.g v ∧ v ∉ s'.expired := by
  have hnu : v ∉ s.user.uids := fun k => hn (pending_uids.2 k)
  have hes : (s.expire [v]).1 = [v] := by
    have : ∀ x, x ∈ (s.expire [v]).1 ↔ x = v := by
      intro x
      rw [mem_expire_fst]
      simp only [List.mem_singleton]
      constructor
      · exact fun k => k.1
      · rintro rfl; exact ⟨rfl, hnu, hr⟩
    unfold St.expire
    dsimp only
    rw [List.filter_cons_of_pos (by simpa using hnu), List.filter_nil, List.filter_cons_of_pos (by simpa using hr), List.filter_nil]
  have hab : Absent (s.expire [v]).2 v := Or.inr ((mem_expire s [v] v).2 ⟨Or.inl he, hr⟩)
  have hlen : 0 < ([v].filter (Absent (s.expire [v]).2 ·)).length := by
    rw [List.filter_cons_of_pos (by simpa using hab)]; simp
  obtain ⟨done, u, rest, s', a1, a2, a3, a4, a5, a6, a7, a8, a9, a10, a11, a12, _⟩ := load_short (P := P) (s := (s.expire [v]).2) hroot h.tidy h.ctx hlen
  have hd : v ∉ done := by
    intro k
    cases done with
    | nil => simp at k
    | cons x xs =>
      have := congrArg List.length a1
      simp at this
  obtain ⟨b1, b2⟩ := a11 v (Or.inl hd)
  refine ⟨s', ?_, h.of a8 a9 a7 hroot a5, by rw [a7]; exact hroot, a6, a5, b1.2 hr, b2, a12 v List.mem_cons_self⟩
  unfold notifyRead refresh
  rw [if_pos he, if_neg (by simp), show s.expire [v] = ((s.expire [v]).1, (s.expire [v]).2) from rfl]
  dsimp only
  rw [hes, a4]

/-- **C106**, what is missing: an expired object is read, and the database does not answer. The read raises. Reading the object again raises nothing, does not ask the database any more, and the object shows its old content. -/
theorem second_read_shows_old (P : Params) (db : Uid → Content) (h : List Call) (hp : ∀ c ∈ h, Proper c) (v : Uid) :
    let s := run P (St.opened db) h
    v ∈ s.expired → v ∈ s.reg → ¬ Pending s v →
      let t := step P s (.hit 0 (.read v))
      t.1 = .error .exception ∧ step P t.2 (.fine (.read v)) = (.ok (), t.2) ∧ (∀ n, step P t.2 (.hit n (.read v)) = (.ok (), t.2)) ∧ v ∈ t.2.reg ∧ t.2.g v = s.g v := by
  intro s he hr hn t
  have hj := reach P db hp
  have hroot : s.root ≠ none := fun k => by have := (hj.closed k).2; rw [this] at he; simp at he
  obtain ⟨s', a1, _, _, _, _, a6, a7, a8⟩ := read_zero (P := P) hj hroot he hr hn
  have ht : t = (.error .exception, s') := a1
  rw [ht]
  refine ⟨rfl, ?_, fun n => ?_, a6, a7⟩
  · show s'.notifyRead P v = _
    unfold St.notifyRead
    rw [if_neg a8]
  · show notifyRead P s' n v = _
    unfold notifyRead
    rw [if_neg a8]

/-- **C106**, what is missing: an expired object is changed, and the database does not answer when its present content is loaded first. The call raises and changes nothing. Repeating it changes the *old* content - so what somebody else
has stored for the object in the meantime is undone by the next commit -, where without the failure the content that is stored is changed. -/
theorem repeated_change_of_old (P : Params) (db : Uid → Content) (h : List Call) (hp : ∀ c ∈ h, Proper c) (v : Uid) (f : Content → Content) :
    let s := run P (St.opened db) h
    v ∈ s.expired → v ∈ s.reg → ¬ Pending s v →
      let t := step P s (.hit 0 (.modify v f))
      let r := step P t.2 (.fine (.modify v f))
      (t.1 = .error .exception ∧ t.2.g v = s.g v ∧ r.1 = .ok () ∧ r.2.g v = f (s.g v) ∧ Pending r.2 v) ∧
      (s.stored v ≠ ∅ → (Sess.step P s (.modify v f)).2.g v = f (s.stored v)) := by
  intro s he hr hn t r
  have hj := reach P db hp
  have hroot : s.root ≠ none := fun k => by have := (hj.closed k).2; rw [this] at he; simp at he
  have change : ∀ {w : St}, JT w → v ∈ w.reg → ¬ Pending w v → ∃ w', ({ w with g := Function.update w.g v (f (w.g v)) } : St).notifyUpdate v = (.ok (), w') ∧ w'.g v = f (w.g v) ∧ Pending w' v := by
    intro w hw _ hnp
    have hnu : v ∉ w.user.deleted := fun k => hnp (Or.inr (Or.inr k))
    rw [notifyUpdate_eq, setBuf_user (by exact hw.ctx), buf_user (by exact hw.ctx)]
    refine ⟨_, by rw [if_neg hnu], Function.update_self _ _ _, pending_uids.2 (Multi.uids_notifyUpdate w.user v).1⟩
  obtain ⟨s', a1, a2, _, _, a5, a6, a7, a8⟩ := read_zero (P := P) hj hroot he hr hn
  have ht : t = (.error .exception, s') := by
    show modify P s 0 v f = _
    unfold modify
    rw [a1]
  refine ⟨?_, fun hst => ?_⟩
  · have hnp : ¬ Pending s' v := by unfold Pending; rw [a5]; exact hn
    obtain ⟨w, b1, b2, b3⟩ := change a2 a6 hnp
    have hrr : r = (.ok (), w) := by
      show t.2.modify P v f = _
      rw [ht]
      unfold St.modify St.notifyRead
      rw [if_neg a8]
      dsimp only
      rw [if_pos a6, b1]
    rw [hrr, ht]
    exact ⟨rfl, a7, rfl, b2.trans (by rw [a7]), b3⟩
  · obtain ⟨w, c1, c2, c3⟩ := Multi.notifyRead_weak (P := P) (s := s) hroot hj.tidy hj.ctx v
    obtain ⟨d1, d2⟩ := c3 he (fun k => hn (pending_uids.2 k)) hr
    have hwr : v ∈ w.reg := d1.2 hst
    have hwp : ¬ Pending w v := by unfold Pending; rw [c2.user]; exact hn
    obtain ⟨x, b1, b2, _⟩ := change (hj.trace hroot (fun _ => trivial) c2) hwr hwp
    show (s.modify P v f).2.g v = _
    unfold St.modify
    rw [c1]
    dsimp only
    rw [if_pos hwr, b1]
    exact b2.trans (by rw [d2])

/-- **C106**, finding: if the database fails while the wrapper is created, the constructor raises, but the session keeps the wrapper as its root and as an added object: it counts as initialised from then on, although what is stored for the
wrapper and its neighbours was not loaded, and the next object that is created does not initialise it again. -/
theorem failed_open (P : Params) (db : Uid → Content) (n : Nat) (u : Uid) (hu : u ≠ 0) (c : Content) :
    let r := step P (St.opened db) (.hit n (.create u c))
    r.1 = .error .exception ∧ r.2.root = some u ∧ u ∈ r.2.reg ∧ u ∈ r.2.user.added ∧ r.2.db = db := by
  intro r
  obtain ⟨s', a, _, b, c', d, e⟩ := create_first (P := P) (J.opened _ db) rfl n hu c
  have hr : r = (.error .exception, s') := a
  rw [hr]
  exact ⟨rfl, b, d, e, c'⟩

end Osp.Outage
