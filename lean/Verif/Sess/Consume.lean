import Verif.Sess.Engine
/-!
# commit, run and save for an arbitrary backend (C14, C57)

`osp/core/session/db/db_wrapper_session.py`, `sim_wrapper_session.py` and `file_wrapper_session.py`. The abstract methods of these classes are implemented by
each backend. Here a backend is any function from the calls it received so far to what it does to the session next (`Prog`), including raising an exception.
-/
namespace Osp.Sess

/-- The abstract methods of the session classes, with the buffers they are given. -/
inductive Call where
  | initTransaction | opened
  | initialize (us : List Uid)
  | applyAdded (us : List Uid)
  | applyUpdated (us : List Uid)
  | applyDeleted (us : List Uid)
  | save | close | commit | rollback | run
  deriving DecidableEq, Repr

/-- What a backend does when it is called, depending on all the calls before. -/
abbrev Backend := List Call → Call → Prog

/-- A session, the calls its backend received (also those that raised), and `_ran`. -/
structure SS where
  st : St
  log : List Call
  ran : Bool

abbrev SRes := Except PyErr Unit × SS

/-- One call of the backend. -/
def SS.call (P : Params) (B : Backend) (c : Call) (s : SS) : SRes :=
  let r := (B s.log c).run P s.st
  (r.1, { s with st := r.2, log := s.log ++ [c] })

/-- Calls one after the other until one raises. -/
def SS.calls (P : Params) (B : Backend) : List Call → SS → SRes
  | [], s => (.ok (), s)
  | c :: cs, s => match s.call P B c with
    | (.ok _, s) => SS.calls P B cs s
    | (.error e, s) => (.error e, s)

/-- `_check_cardinalities`, wrapper_session.py:449-460. -/
def SS.check (s : SS) (k : SRes) : SRes := if s.st.root = none then (.error .runtimeError, s) else k

/-- `self._registry.get(self.root)`, registry.py:40-57. -/
def SS.rootObj (s : SS) : Except PyErr Unit := match s.st.root with
  | none => .error .valueError
  | some r => if r ∈ s.st.reg then .ok () else .error .keyError

/-- `_reset_buffers(BufferContext.USER)`, wrapper_session.py:320-333. -/
def SS.reset (s : SS) : SS := { s with st := { s.st with user := .empty } }

/-- `expire_all`, wrapper_session.py:134-143. -/
def SS.expireAll (s : SS) : SS := { s with st := (s.st.expire s.st.reg).2 }

/-- `consumes_buffers`, wrapper_session.py:17-29: the method runs in the engine context. -/
def SS.inEngine (s : SS) (f : SS → SRes) : SRes :=
  let s1 := if s.st.ctx ≠ .engine then { s.st with engine := .empty } else s.st
  let r := f { s with st := { s1 with ctx := .engine } }
  (r.1, { r.2 with st := { r.2.st with ctx := s.st.ctx } })

/-- The calls that apply the buffers. -/
def applyCalls (b : Buf) : List Call := [.applyAdded b.added, .applyUpdated b.updated, .applyDeleted b.deleted]

/-- The `try` block of `commit`, db_wrapper_session.py:17-24. -/
def SS.commitTry (P : Params) (B : Backend) (s : SS) : SRes :=
  match s.rootObj with
  | .error e => (.error e, s)
  | .ok _ => match s.calls P B (applyCalls s.st.user) with
    | (.error e, s) => (.error e, s)
    | (.ok _, s) => s.reset.call P B .commit

/-- The body of `DbWrapperSession.commit`, db_wrapper_session.py:12-29. -/
def SS.commitBody (P : Params) (B : Backend) (s : SS) : SRes :=
  s.check <| match s.call P B .initTransaction with
    | (.error e, s) => (.error e, s)
    | (.ok _, s) => match s.commitTry P B with
      | (.ok _, s) => (.ok (), s.expireAll)
      | (.error e, s) => match s.call P B .rollback with
        | (.ok _, s) => (.error e, s)
        | (.error e', s) => (.error e', s)

/-- The body of `SimWrapperSession.run`, sim_wrapper_session.py:24-39. -/
def SS.runBody (P : Params) (B : Backend) (s : SS) : SRes :=
  s.check <| match s.rootObj with
    | .error e => (.error e, s)
    | .ok _ => match s.calls P B (if s.ran then applyCalls s.st.user else [.initialize s.st.user.added]) with
      | (.error e, s) => (.error e, s)
      | (.ok _, s) => match s.reset.call P B .run with
        | (.error e, s) => (.error e, s)
        | (.ok _, s) => (.ok (), SS.expireAll { s with ran := true })

/-- The body of `FileWrapperSession.save`, file_wrapper_session.py:17-31. -/
def SS.saveBody (P : Params) (B : Backend) (s : SS) : SRes :=
  s.check <| match s.call P B .opened with
    | (.error e, s) => (.error e, s)
    | (.ok _, s) => match s.rootObj with
      | .error e => (.error e, s)
      | .ok _ => match s.calls P B (applyCalls s.st.user ++ [.save, .close]) with
        | (.error e, s) => (.error e, s)
        | (.ok _, s) => (.ok (), s.reset.expireAll)

/-- The three methods as the user calls them. -/
inductive Method where
  | db | sim | file
  deriving DecidableEq

def SS.consume (P : Params) (B : Backend) (k : Method) (s : SS) : SRes := s.inEngine (fun s => match k with
  | .db => s.commitBody P B
  | .sim => s.runBody P B
  | .file => s.saveBody P B)

/-! ### lemmas -/

theorem call_log (P : Params) (B : Backend) (c : Call) (s : SS) : (s.call P B c).2.log = s.log ++ [c] := rfl
theorem call_ran (P : Params) (B : Backend) (c : Call) (s : SS) : (s.call P B c).2.ran = s.ran := rfl

theorem call_keeps (P : Params) (B : Backend) (c : Call) (s : SS) (h : s.st.ctx = .engine) : Keeps s.st (s.call P B c).2.st :=
  keeps_prog (B s.log c) s.st h

/-- The calls made by `calls` are an initial part of the list, all of it if nothing is raised; nothing else happens. -/
theorem calls_spec (P : Params) (B : Backend) : ∀ (cs : List Call) (s : SS), s.st.ctx = .engine →
    Keeps s.st (s.calls P B cs).2.st ∧ (s.calls P B cs).2.ran = s.ran ∧
    ∃ done, done <+: cs ∧ (s.calls P B cs).2.log = s.log ++ done ∧ ((s.calls P B cs).1 = .ok () → done = cs) := by
  intro cs
  induction cs with
  | nil => intro s _; exact ⟨Keeps.rfl, rfl, [], List.prefix_refl _, by simp [SS.calls], fun _ => rfl⟩
  | cons c cs ih =>
    intro s hc
    have h1 := call_keeps P B c s hc
    have h2 := call_log P B c s
    have h3 := call_ran P B c s
    unfold SS.calls
    split
    · rename_i s' h
      rw [h] at h1 h2 h3
      dsimp only at h1 h2 h3
      obtain ⟨k, r, done, d1, d2, d3⟩ := ih s' (h1.2.trans hc)
      refine ⟨h1.trans k, r.trans h3, c :: done, ?_, ?_, fun h => by rw [d3 h]⟩
      · exact (List.cons_prefix_cons).2 ⟨rfl, d1⟩
      · rw [d2, h2, List.append_assoc]; rfl
    · rename_i e s' h
      rw [h] at h1 h2 h3
      dsimp only at h1 h2 h3
      exact ⟨h1, h3, [c], ⟨cs, rfl⟩, h2, fun h => by cases h⟩

/-- What is supposed to be called. -/
def expected (k : Method) (ran : Bool) (b : Buf) : List Call := match k with
  | .db => [.initTransaction, .applyAdded b.added, .applyUpdated b.updated, .applyDeleted b.deleted, .commit]
  | .sim => if ran then [.applyAdded b.added, .applyUpdated b.updated, .applyDeleted b.deleted, .run] else [.initialize b.added, .run]
  | .file => [.opened, .applyAdded b.added, .applyUpdated b.updated, .applyDeleted b.deleted, .save, .close]

/-- The call after which the buffers are gone even if it raises. -/
def afterReset : Method → Call
  | .db => .commit
  | .sim => .run
  | .file => .close

theorem expire_all_expired {s : SS} (h : s.st.user = .empty) : ∀ u ∈ s.expireAll.st.reg, u ∈ s.expireAll.st.expired := by
  intro u hu
  have hu' : u ∈ s.st.reg := hu
  show u ∈ (s.st.expire s.st.reg).2.expired
  unfold St.expire
  simp only [h, List.mem_filter, List.mem_append, decide_eq_true_eq]
  refine ⟨?_, hu'⟩
  by_cases k : u ∈ s.st.expired
  · exact Or.inl k
  · exact Or.inr ⟨⟨hu', by simp [Buf.uids, Buf.empty]⟩, k⟩

/-- The outcome of `commit`/`run`/`save`. -/
structure Outcome (k : Method) (s : SS) (r : SRes) : Prop where
  /-- on success: the expected calls, empty buffers, everything expired -/
  ok : r.1 = .ok () → r.2.log = s.log ++ expected k s.ran s.st.user ∧ r.2.st.user = .empty ∧ (∀ u ∈ r.2.st.reg, u ∈ r.2.st.expired) ∧
    (k = .sim → r.2.ran = true)
  /-- on failure: an initial part of the expected calls (followed by the rollback); the buffers are untouched, unless the last call was reached -/
  err : r.1 ≠ .ok () → r.2.ran = s.ran ∧ ∃ done rb, r.2.log = s.log ++ done ++ rb ∧ done <+: expected k s.ran s.st.user ∧ (rb = [] ∨ k = .db ∧ rb = [.rollback]) ∧
    r.2.st.user = (if k ≠ .file ∧ afterReset k ∈ done then .empty else s.st.user)

theorem not_last {k : Method} {ran : Bool} {b : Buf} {done : List Call} (h : done <+: (expected k ran b).dropLast) : afterReset k ∉ done := by
  intro hm
  have := h.subset hm
  revert this
  cases k <;> cases ran <;> simp [expected, afterReset]

theorem rootObj_cases (s : SS) : s.rootObj = .ok () ∨ ∃ e, s.rootObj = .error e := by
  cases s.rootObj with
  | ok a => exact Or.inl rfl
  | error e => exact Or.inr ⟨e, rfl⟩

theorem commitBody_outcome (P : Params) (B : Backend) (s : SS) (hc : s.st.ctx = .engine) : Outcome .db s (s.commitBody P B) := by
  have stay : ∀ e, Outcome .db s (.error e, s) := fun e => ⟨fun h => (by cases h), fun _ => ⟨rfl, [], [], by simp, List.nil_prefix, Or.inl rfl, by simp⟩⟩
  unfold SS.commitBody SS.check
  split
  · exact stay _
  · have a1 := call_keeps P B .initTransaction s hc
    have a2 := call_log P B .initTransaction s
    have a3 := call_ran P B .initTransaction s
    split
    · rename_i e s1 h
      rw [h] at a1 a2 a3
      refine ⟨fun h => (by cases h), fun _ => ⟨a3, [.initTransaction], [], ?_, ⟨_, rfl⟩, Or.inl rfl, ?_⟩⟩
      · simp only [List.append_nil]; exact a2
      · rw [if_neg (by simp [afterReset])]; exact a1.1
    · rename_i s1 h
      rw [h] at a1 a2 a3
      dsimp only at a1 a2 a3
      have hc1 := a1.2.trans hc
      -- the try block
      have key : ∃ done, (s1.commitTry P B).2.log = s.log ++ done ∧ done <+: expected .db s.ran s.st.user ∧
          (s1.commitTry P B).2.st.user = (if Call.commit ∈ done then .empty else s.st.user) ∧ (s1.commitTry P B).2.st.ctx = .engine ∧
          (s1.commitTry P B).2.ran = s.ran ∧ ((s1.commitTry P B).1 = .ok () → done = expected .db s.ran s.st.user) := by
        unfold SS.commitTry
        rcases rootObj_cases s1 with hr | ⟨e, hr⟩
        · rw [hr]
          dsimp only
          have b := calls_spec P B (applyCalls s1.st.user) s1 hc1
          obtain ⟨b1, b2, done, b3, b4, b5⟩ := b
          have hsub : Call.initTransaction :: done <+: (expected .db s.ran s.st.user).dropLast := by
            rw [a1.1] at b3
            exact (List.cons_prefix_cons).2 ⟨rfl, b3⟩
          split
          · rename_i e s2 h2
            rw [h2] at b1 b2 b4
            dsimp only at b1 b2 b4
            refine ⟨.initTransaction :: done, ?_, hsub.trans (List.dropLast_prefix _), ?_, b1.2.trans hc1, b2.trans a3, fun h => by cases h⟩
            · dsimp only; rw [b4, a2, List.append_assoc]; rfl
            · rw [if_neg (show Call.commit ∉ _ from not_last (k := .db) hsub)]; exact b1.1.trans a1.1
          · rename_i s2 h2
            rw [h2] at b1 b2 b4 b5
            dsimp only at b1 b2 b4 b5
            have hd := b5 rfl
            subst hd
            have c1 := call_keeps P B .commit s2.reset (by exact b1.2.trans hc1)
            refine ⟨expected .db s.ran s.st.user, ?_, List.prefix_refl _, ?_, c1.2.trans (b1.2.trans hc1), b2.trans a3, fun _ => rfl⟩
            · rw [call_log]
              show s2.log ++ _ = _
              rw [b4, a2, a1.1]
              simp [expected, applyCalls]
            · rw [if_pos (by simp [expected])]; exact c1.1
        · rw [hr]
          refine ⟨[.initTransaction], a2, ⟨_, rfl⟩, ?_, hc1, a3, fun h => by cases h⟩
          rw [if_neg (by simp)]; exact a1.1
      obtain ⟨done, k1, k2, k3, k4, k5, k6⟩ := key
      split
      · rename_i s2 h2
        rw [h2] at k1 k3 k5 k6
        dsimp only at k1 k3 k5 k6
        have hd := k6 rfl
        subst hd
        rw [if_pos (by simp [expected])] at k3
        exact ⟨fun _ => ⟨k1, k3, expire_all_expired k3, fun h => (by cases h)⟩, fun h => absurd rfl h⟩
      · rename_i e s2 h2
        rw [h2] at k1 k3 k4 k5
        dsimp only at k1 k3 k4 k5
        have d1 := call_keeps P B .rollback s2 k4
        have d2 := call_log P B .rollback s2
        have d3 := call_ran P B .rollback s2
        have fin : ∀ (x : SS) (e : PyErr), (s2.call P B .rollback).2 = x → Outcome .db s (.error e, x) := by
          intro x e hx
          rw [hx] at d1 d2 d3
          refine ⟨fun h => (by cases h), fun _ => ⟨d3.trans k5, done, [.rollback], ?_, k2, Or.inr ⟨rfl, rfl⟩, ?_⟩⟩
          · dsimp only; rw [d2, k1]
          · dsimp only
            rw [d1.1, k3]
            simp [afterReset]
        split
        · rename_i s3 h3
          exact fin s3 e (by rw [h3])
        · rename_i e' s3 h3
          exact fin s3 e' (by rw [h3])

theorem runBody_outcome (P : Params) (B : Backend) (s : SS) (hc : s.st.ctx = .engine) : Outcome .sim s (s.runBody P B) := by
  have stay : ∀ e, Outcome .sim s (.error e, s) := fun e => ⟨fun h => (by cases h), fun _ => ⟨rfl, [], [], by simp, List.nil_prefix, Or.inl rfl, by simp⟩⟩
  unfold SS.runBody SS.check
  split
  · exact stay _
  · rcases rootObj_cases s with hr | ⟨e, hr⟩
    · rw [hr]
      dsimp only
      have hexp : (if s.ran then applyCalls s.st.user else [.initialize s.st.user.added]) ++ [Call.run] = expected .sim s.ran s.st.user := by
        cases s.ran <;> rfl
      have hdl : (expected .sim s.ran s.st.user).dropLast = (if s.ran then applyCalls s.st.user else [.initialize s.st.user.added]) := by
        rw [← hexp, List.dropLast_concat]
      obtain ⟨b1, b2, done, b3, b4, b5⟩ := calls_spec P B (if s.ran then applyCalls s.st.user else [.initialize s.st.user.added]) s hc
      split
      · rename_i e s2 h2
        rw [h2] at b1 b2 b4
        refine ⟨fun h => (by cases h), fun _ => ⟨b2, done, [], by simpa using b4, ?_, Or.inl rfl, ?_⟩⟩
        · rw [← hexp]; exact b3.trans (List.prefix_append _ _)
        · rw [if_neg (by rintro ⟨_, h⟩; exact not_last (hdl ▸ b3) h)]; exact b1.1
      · rename_i s2 h2
        rw [h2] at b1 b2 b4 b5
        dsimp only at b1 b2 b4 b5
        have hd := b5 rfl
        rw [hd] at b4
        have c1 := call_keeps P B .run s2.reset (by exact b1.2.trans hc)
        have c2 := call_log P B .run s2.reset
        have c3 := call_ran P B .run s2.reset
        have hl : s2.reset.log ++ [Call.run] = s.log ++ expected .sim s.ran s.st.user := by
          show s2.log ++ _ = _
          rw [b4, List.append_assoc, hexp]
        split
        · rename_i e s3 h3
          rw [h3] at c1 c2 c3
          refine ⟨fun h => (by cases h), fun _ => ⟨c3.trans b2, expected .sim s.ran s.st.user, [], ?_, List.prefix_refl _, Or.inl rfl, ?_⟩⟩
          · simp only [List.append_nil]; exact c2.trans hl
          · rw [if_pos ⟨by decide, by rw [← hexp]; simp [afterReset]⟩]; exact c1.1
        · rename_i s3 h3
          rw [h3] at c1 c2 c3
          refine ⟨fun _ => ⟨c2.trans hl, c1.1, ?_, fun _ => rfl⟩, fun h => absurd rfl h⟩
          exact expire_all_expired (s := { s3 with ran := true }) c1.1
    · rw [hr]
      exact stay _

theorem saveBody_outcome (P : Params) (B : Backend) (s : SS) (hc : s.st.ctx = .engine) : Outcome .file s (s.saveBody P B) := by
  have stay : ∀ e, Outcome .file s (.error e, s) := fun e => ⟨fun h => (by cases h), fun _ => ⟨rfl, [], [], by simp, List.nil_prefix, Or.inl rfl, by simp⟩⟩
  unfold SS.saveBody SS.check
  split
  · exact stay _
  · have a1 := call_keeps P B .opened s hc
    have a2 := call_log P B .opened s
    have a3 := call_ran P B .opened s
    split
    · rename_i e s1 h
      rw [h] at a1 a2 a3
      refine ⟨fun h => (by cases h), fun _ => ⟨a3, [.opened], [], by simpa using a2, ⟨_, rfl⟩, Or.inl rfl, ?_⟩⟩
      rw [if_neg (by simp)]; exact a1.1
    · rename_i s1 h
      rw [h] at a1 a2 a3
      dsimp only at a1 a2 a3
      have hc1 := a1.2.trans hc
      rcases rootObj_cases s1 with hr | ⟨e, hr⟩
      · rw [hr]
        dsimp only
        obtain ⟨b1, b2, done, b3, b4, b5⟩ := calls_spec P B (applyCalls s1.st.user ++ [.save, .close]) s1 hc1
        have hexp : Call.opened :: (applyCalls s1.st.user ++ [.save, .close]) = expected .file s.ran s.st.user := by rw [a1.1]; rfl
        split
        · rename_i e s2 h2
          rw [h2] at b1 b2 b4
          refine ⟨fun h => (by cases h), fun _ => ⟨b2.trans a3, .opened :: done, [], ?_, ?_, Or.inl rfl, ?_⟩⟩
          · simp only [List.append_nil]; rw [b4, a2, List.append_assoc]; rfl
          · rw [← hexp]; exact (List.cons_prefix_cons).2 ⟨rfl, b3⟩
          · rw [if_neg (by simp)]; exact b1.1.trans a1.1
        · rename_i s2 h2
          rw [h2] at b1 b2 b4 b5
          dsimp only at b1 b2 b4 b5
          have hd := b5 rfl
          rw [hd] at b4
          refine ⟨fun _ => ⟨?_, rfl, expire_all_expired (s := s2.reset) rfl, fun h => (by cases h)⟩, fun h => absurd rfl h⟩
          show s2.log = _
          rw [b4, a2, ← hexp, List.append_assoc]; rfl
      · rw [hr]
        refine ⟨fun h => (by cases h), fun _ => ⟨a3, [.opened], [], by simpa using a2, ⟨_, rfl⟩, Or.inl rfl, ?_⟩⟩
        rw [if_neg (by simp)]; exact a1.1

/-! ### properties -/

theorem consume_outcome (P : Params) (B : Backend) (k : Method) (s : SS) : Outcome k s (s.consume P B k) := by
  unfold SS.consume SS.inEngine
  have hs : ∀ s1 : SS, s1.st.user = s.st.user → s1.log = s.log → s1.ran = s.ran → ∀ r, Outcome k s1 r →
      Outcome k s (r.1, { r.2 with st := { r.2.st with ctx := s.st.ctx } }) := by
    intro s1 h1 h2 h3 r h
    constructor
    · intro hok
      have := h.ok hok
      rw [h1, h2, h3] at this
      exact this
    · intro he
      have := h.err he
      rw [h1, h2, h3] at this
      exact this
  dsimp only
  generalize hs1 : ({ s with st := { (if s.st.ctx ≠ .engine then { s.st with engine := .empty } else s.st) with ctx := .engine } } : SS) = s1
  have e1 : s1.st.user = s.st.user := by subst hs1; dsimp only; split <;> rfl
  have e2 : s1.log = s.log := by subst hs1; rfl
  have e3 : s1.ran = s.ran := by subst hs1; rfl
  have e4 : s1.st.ctx = .engine := by subst hs1; rfl
  refine hs s1 e1 e2 e3 _ ?_
  cases k
  · exact commitBody_outcome P B _ e4
  · exact runBody_outcome P B _ e4
  · exact saveBody_outcome P B _ e4

/-- **C14**, success, for every backend: `commit`, `save`, and every `run` after the first one give the backend exactly the three buffers, in this order, before
the changes are made permanent (the simulation is started); afterwards the buffers are empty and all objects are expired. Partial: the very first `run`
passes only the added objects, see `first_run_drops_changes`. -/
theorem success_consumes_partial (P : Params) (B : Backend) (k : Method) (s : SS) (hran : k = .sim → s.ran = true) (hok : (s.consume P B k).1 = .ok ()) :
    (∃ before after, (s.consume P B k).2.log = s.log ++ (before ++
        [.applyAdded s.st.user.added, .applyUpdated s.st.user.updated, .applyDeleted s.st.user.deleted] ++ after) ∧
      before = (match k with | .db => [.initTransaction] | .sim => [] | .file => [.opened]) ∧
      after = (match k with | .db => [.commit] | .sim => [.run] | .file => [.save, .close])) ∧
    (s.consume P B k).2.st.user = .empty ∧
    (∀ u ∈ (s.consume P B k).2.st.reg, u ∈ (s.consume P B k).2.st.expired) := by
  obtain ⟨h1, h2, h3, _⟩ := (consume_outcome P B k s).ok hok
  refine ⟨⟨_, _, ?_, rfl, rfl⟩, h2, h3⟩
  rw [h1]
  cases k
  · rfl
  · rw [hran rfl]; rfl
  · rfl

/-- **C14/C42**, failure, for every backend: if `save` fails, the pending changes are all still pending; if `commit` (`run`) fails, they are still pending unless
the final commit of the backend (the simulation itself) was started, and then they are gone. -/
theorem failure_keeps_or_loses (P : Params) (B : Backend) (k : Method) (s : SS) (herr : (s.consume P B k).1 ≠ .ok ()) :
    ∃ calls, (s.consume P B k).2.log = s.log ++ calls ∧
      ((k = .file ∨ afterReset k ∉ calls) → (s.consume P B k).2.st.user = s.st.user) ∧
      (k ≠ .file → afterReset k ∈ calls → (s.consume P B k).2.st.user = .empty) := by
  obtain ⟨_, done, rb, h1, _, h3, h4⟩ := (consume_outcome P B k s).err herr
  refine ⟨done ++ rb, by rw [h1, List.append_assoc], ?_, ?_⟩
  · rintro (rfl | h)
    · rw [h4, if_neg (by simp)]
    · rw [h4, if_neg]
      rintro ⟨_, hm⟩
      exact h (List.mem_append_left _ hm)
  · intro hk hm
    rw [h4, if_pos]
    refine ⟨hk, ?_⟩
    rcases List.mem_append.1 hm with hm | hm
    · exact hm
    · rcases h3 with rfl | ⟨rfl, rfl⟩
      · cases hm
      · simp [afterReset] at hm

/-- A failed `commit` calls the rollback of the backend as soon as the transaction was started. -/
theorem failed_commit_rolls_back (P : Params) (B : Backend) (s : SS) (s1 : SS) (hroot : s.st.root ≠ none)
    (hs1 : SS.call P B .initTransaction { s with st := { (if s.st.ctx ≠ .engine then { s.st with engine := .empty } else s.st) with ctx := .engine } } = (.ok (), s1))
    (herr : (s.consume P B .db).1 ≠ .ok ()) : (s.consume P B .db).2.log.getLast? = some .rollback := by
  have hr : ∀ x : SS, x.st.root = s.st.root → (if x.st.root = none then True else False) = False := fun x h => by rw [h, if_neg hroot]
  unfold SS.consume SS.inEngine SS.commitBody SS.check at herr ⊢
  dsimp only at herr ⊢
  have hroot' : ¬ (({ (if s.st.ctx ≠ .engine then { s.st with engine := .empty } else s.st) with ctx := Ctx.engine } : St).root = none) := by
    split <;> exact hroot
  rw [if_neg hroot', hs1] at herr ⊢
  dsimp only at herr ⊢
  generalize SS.commitTry P B s1 = r at herr ⊢
  obtain ⟨r1, s2⟩ := r
  cases r1 with
  | ok a => exact absurd rfl herr
  | error e =>
    dsimp only
    have h := call_log P B .rollback s2
    generalize SS.call P B .rollback s2 = q at h ⊢
    obtain ⟨q1, s3⟩ := q
    have hl : s3.log = s2.log ++ [.rollback] := h
    cases q1 <;> simp [hl]

/-! ### C57: histories of a simulation session -/

/-- A history: operations of the user, and runs. -/
inductive SOp where
  | user (o : Op)
  | run

def SS.step (P : Params) (B : Backend) (s : SS) : SOp → SRes
  | .user o => let r := Osp.Sess.step P s.st o; (r.1, { s with st := r.2 })
  | .run => s.consume P B .sim

/-- The states before each operation of a history, with the operation and its outcome. -/
def SS.trace (P : Params) (B : Backend) (s : SS) : List SOp → List (SS × SOp × SRes)
  | [] => []
  | o :: os => (s, o, s.step P B o) :: SS.trace P B (s.step P B o).2 os

/-- The operation is a run that ended normally. -/
def GoodRun (x : SS × SOp × SRes) : Prop := x.2.1 = .run ∧ x.2.2.1 = .ok ()

theorem trace_ran (P : Params) (B : Backend) : ∀ (ops : List SOp) (s : SS) (i : Nat) (x : SS × SOp × SRes), (s.trace P B ops)[i]? = some x →
    (x.1.ran = true ↔ s.ran = true ∨ ∃ j y, j < i ∧ (s.trace P B ops)[j]? = some y ∧ GoodRun y) := by
  intro ops
  induction ops with
  | nil => intro s i x h; simp [SS.trace] at h
  | cons o os ih =>
    intro s i x h
    have hran : (s.step P B o).2.ran = true ↔ s.ran = true ∨ GoodRun (s, o, s.step P B o) := by
      cases o with
      | user o =>
        show s.ran = true ↔ _
        exact ⟨Or.inl, fun h => h.elim id (fun k => by cases k.1)⟩
      | run =>
        have out := consume_outcome P B .sim s
        by_cases hok : (s.consume P B .sim).1 = .ok ()
        · have := (out.ok hok).2.2.2 rfl
          exact ⟨fun _ => Or.inr ⟨rfl, hok⟩, fun _ => this⟩
        · have := (out.err hok).1
          constructor
          · intro h; exact Or.inl (by rw [← this]; exact h)
          · rintro (h | ⟨_, h⟩)
            · exact this.trans h
            · exact absurd h hok
    cases i with
    | zero =>
      simp only [SS.trace, List.getElem?_cons_zero, Option.some.injEq] at h
      subst h
      exact ⟨Or.inl, fun h => h.elim id (fun ⟨j, _, hj, _⟩ => absurd hj (Nat.not_lt_zero _))⟩
    | succ i =>
      simp only [SS.trace, List.getElem?_cons_succ] at h
      rw [ih _ i x h, hran]
      constructor
      · rintro ((h | h) | ⟨j, y, hj, h1, h2⟩)
        · exact Or.inl h
        · exact Or.inr ⟨0, _, Nat.succ_pos _, rfl, h⟩
        · exact Or.inr ⟨j + 1, y, Nat.succ_lt_succ hj, by simpa [SS.trace] using h1, h2⟩
      · rintro (h | ⟨j, y, hj, h1, h2⟩)
        · exact Or.inl (Or.inl h)
        · cases j with
          | zero =>
            simp only [SS.trace, List.getElem?_cons_zero, Option.some.injEq] at h1
            subst h1
            exact Or.inl (Or.inr h2)
          | succ j => exact Or.inr ⟨j, y, Nat.lt_of_succ_lt_succ hj, by simpa [SS.trace] using h1, h2⟩

/-- **C57.** In every history of a new simulation session and for every backend: whenever the simulation is started, the changes pending at that time were passed to
the backend before it, in this very call: by the three `_apply` methods if an earlier run ended normally, otherwise the added objects by `_initialize`.
Partial: before the first successful run, pending updates and deletions are not passed to the backend. -/
theorem changes_applied_before_run_partial (P : Params) (B : Backend) (db : Uid → Content) (ops : List SOp) (i : Nat) (x : SS × SOp × SRes)
    (hx : (SS.trace P B ⟨.opened db, [], false⟩ ops)[i]? = some x) (hrun : x.2.1 = .run) :
    let earlier := ∃ j y, j < i ∧ (SS.trace P B ⟨.opened db, [], false⟩ ops)[j]? = some y ∧ GoodRun y
    ∃ calls, x.2.2.2.log = x.1.log ++ calls ∧ (x.2.2.1 = .ok () → .run ∈ calls) ∧
      (.run ∈ calls → (earlier → calls = [.applyAdded x.1.st.user.added, .applyUpdated x.1.st.user.updated, .applyDeleted x.1.st.user.deleted, .run]) ∧
        (¬ earlier → calls = [.initialize x.1.st.user.added, .run])) := by
  intro earlier
  have hr := trace_ran P B ops ⟨.opened db, [], false⟩ i x hx
  have hr : x.1.ran = true ↔ earlier := by
    rw [hr]
    exact ⟨fun h => h.elim (fun k => by cases k) id, Or.inr⟩
  have hstep : x.2.2 = x.1.consume P B .sim := by
    have : ∀ (ops : List SOp) (s : SS) (i : Nat), (s.trace P B ops)[i]? = some x → x.2.2 = x.1.step P B x.2.1 := by
      intro ops
      induction ops with
      | nil => intro s i h; simp [SS.trace] at h
      | cons o os ih =>
        intro s i h
        cases i with
        | zero =>
          simp only [SS.trace, List.getElem?_cons_zero, Option.some.injEq] at h
          subst h
          rfl
        | succ i => exact ih _ i (by simpa [SS.trace] using h)
    rw [this ops _ i hx, hrun]
    rfl
  have out := consume_outcome P B .sim x.1
  rw [← hstep] at out
  have hexp : (earlier → expected .sim x.1.ran x.1.st.user =
        [.applyAdded x.1.st.user.added, .applyUpdated x.1.st.user.updated, .applyDeleted x.1.st.user.deleted, .run]) ∧
      (¬ earlier → expected .sim x.1.ran x.1.st.user = [.initialize x.1.st.user.added, .run]) := by
    refine ⟨fun h => by rw [hr.2 h]; rfl, fun h => ?_⟩
    have : x.1.ran = false := by
      cases hb : x.1.ran with
      | false => rfl
      | true => exact absurd (hr.1 hb) h
    rw [this]; rfl
  by_cases hok : x.2.2.1 = .ok ()
  · refine ⟨_, (out.ok hok).1, fun _ => ?_, fun _ => hexp⟩
    cases x.1.ran <;> simp [expected]
  · obtain ⟨_, done, rb, h1, h2, h3, h4⟩ := out.err hok
    have hrb : rb = [] := by
      rcases h3 with h | ⟨h, _⟩
      · exact h
      · cases h
    subst hrb
    rw [List.append_nil] at h1
    refine ⟨done, h1, fun h => absurd h hok, fun hm => ?_⟩
    have : done = expected .sim x.1.ran x.1.st.user := by
      obtain ⟨t, ht⟩ := h2
      have hnd : t = [] := by
        cases hran : x.1.ran
        all_goals
          rw [hran] at ht
          simp only [expected, if_true, Bool.false_eq_true, if_false] at ht
          have hl := congrArg List.getLast? ht
          cases t with
          | nil => rfl
          | cons a t =>
            exfalso
            obtain ⟨p, q, rfl⟩ := List.append_of_mem hm
            have hc := congrArg (List.countP (· = Call.run)) ht
            have hlast : Call.run ∈ (a :: t) := by
              rw [List.getLast?_append] at hl
              cases hg : (a :: t).getLast? with
              | none => simp at hg
              | some z =>
                rw [hg] at hl
                simp at hl
                subst hl
                exact List.mem_of_getLast? hg
            obtain ⟨p', q', e⟩ := List.append_of_mem hlast
            rw [e] at hc
            simp [List.countP_append] at hc
            omega
      rw [← ht, hnd, List.append_nil]
    rw [this]
    exact hexp

/-! ### witnesses and findings -/

def Pc : Params := { diff := fun _ _ => [], nb := fun _ => [], typePart := id, order := id, order_mem := fun _ _ => Iff.rfl }

/-- A session with the wrapper 1 and the object 2. -/
def sc : SS := ⟨(step Pc (step Pc (.opened (fun _ => ∅)) (.create 1 {7})).2 (.create 2 {8})).2, [], false⟩

/-- A backend that never fails and does nothing to the session. -/
def quiet : Backend := fun _ _ => .skip

/-- A simulation that fails in its first run. -/
def failsOnce : Backend := fun log c => if c = .run ∧ c ∉ log then .raise .runtimeError else .skip

example : (sc.consume Pc quiet .db).1 = .ok () ∧ (sc.consume Pc quiet .db).2.log = [.initTransaction, .applyAdded [1, 2], .applyUpdated [], .applyDeleted [], .commit] ∧
    (sc.consume Pc quiet .file).1 = .ok () ∧ (sc.consume Pc failsOnce .sim).1 ≠ .ok () := by decide +kernel

/-- Finding: changes and deletions before the first run are not passed to the simulation and are no longer pending afterwards. Here the engine loaded an object in
the beginning, the user deletes it, and the simulation runs without being told. -/
theorem first_run_drops_changes :
    let s : SS := ⟨(step Pc (step Pc ((sc.st.inEngine (Prog.run Pc (.store 5 {3}))).2) (.delete 5)).2 (.modify 2 id)).2, [], false⟩
    let r := s.consume Pc quiet .sim
    s.st.user.deleted = [5] ∧ r.1 = .ok () ∧ r.2.log = [.initialize [1, 2], .run] ∧ r.2.st.user = .empty := by
  decide +kernel

/-- Finding: if the first run fails inside the simulation, later modifications of the objects passed to it are never passed to the simulation. -/
theorem failed_first_run_drops_updates :
    let r1 := sc.consume Pc failsOnce .sim
    let s2 : SS := { r1.2 with st := (step Pc r1.2.st (.modify 2 id)).2 }
    let r2 := s2.consume Pc failsOnce .sim
    r1.1 = .error .runtimeError ∧ s2.st.user.updated = [2] ∧ r2.1 = .ok () ∧
      r2.2.log = [.initialize [1, 2], .run, .initialize [], .run] ∧ r2.2.st.user = .empty := by
  decide +kernel

/-- Finding: if applying the changes or writing the file fails, `save` never closes the file it opened. -/
theorem failed_save_leaves_file_open :
    let B : Backend := fun _ c => if c = .save then .raise .exception else .skip
    let r := sc.consume Pc B .file
    r.1 = .error .exception ∧ r.2.log = [.opened, .applyAdded [1, 2], .applyUpdated [], .applyDeleted [], .save] ∧ r.2.st.user = sc.st.user := by
  decide +kernel

end Osp.Sess
