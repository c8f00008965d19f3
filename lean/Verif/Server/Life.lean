import Verif.Server.Props
/-!
# Life cycle of sessions (C09)
-/
namespace Osp.Server
variable {S D A R H : Type}

/-- How often `close()` was called on a session object. -/
def closes (s : Srv S H) (i : SId) : Option Nat := (s.heap i).map Prod.snd

theorem runOn_closes {α : Type} (s : Srv S H) (i : SId) (f : Op S α) (j : SId) : closes (runOn s i f).1 j = closes s j := by
  unfold runOn closes
  split
  · rfl
  · rename_i x n h
    by_cases hj : j = i
    · subst hj
      show (upd s.heap j (some ((f x).1, n)) j).map Prod.snd = _
      rw [upd_same, h]; rfl
    · show (upd s.heap i (some ((f x).1, n)) j).map Prod.snd = _
      rw [upd_other _ _ hj]

theorem closeSession_closes (k : Cls S D A R H) (s : Srv S H) (i j : SId) : closes (closeSession k s i).1 j = if j = i then (closes s i).map (· + 1) else closes s j := by
  unfold closeSession closes
  split
  · rename_i h
    split
    · rename_i hj; rw [hj, h]; rfl
    · rfl
  · rename_i x n h
    by_cases hj : j = i
    · subst hj
      rw [if_pos rfl]
      show (upd s.heap j (some ((k.close x).1, n + 1)) j).map Prod.snd = _
      rw [upd_same, h]; rfl
    · rw [if_neg hj]
      show (upd s.heap i (some ((k.close x).1, n + 1)) j).map Prod.snd = _
      rw [upd_other _ _ hj]

theorem finishInit_closes (k : Cls S D A R H) (s : Srv S H) (i : SId) (root : Option D) (j : SId) : closes (finishInit k s i root).1 j = closes s j := by
  unfold finishInit
  split
  · rfl
  · rename_i r
    have h1 := runOn_closes s i (k.readRoot r) j
    split
    · rename_i h; rw [h] at h1; exact h1
    · rename_i h; rw [h] at h1; rw [runOn_closes]; exact h1

theorem finishInit_objs (k : Cls S D A R H) (s : Srv S H) (i : SId) (root : Option D) : (finishInit k s i root).1.objs = s.objs := by
  unfold finishInit
  split
  · rfl
  · rename_i r
    have h1 := runOn_objs s i (k.readRoot r)
    split
    · rename_i h; rw [h] at h1; exact h1
    · rename_i h; rw [h] at h1; rw [runOn_objs]; exact h1

theorem loadFromSession_closes (k : Cls S D A R H) (s : Srv S H) (c : Conn) (d : D) : (∀ j, closes (loadFromSession k s c d).1 j = closes s j) ∧ (loadFromSession k s c d).1.objs = s.objs := by
  unfold loadFromSession
  split
  · exact ⟨fun _ => rfl, rfl⟩
  · rename_i i _
    have h1 := runOn_closes s i (k.load d)
    have h2 := runOn_objs s i (k.load d)
    split
    · rename_i h; rw [h] at h1 h2; exact ⟨h1, h2⟩
    · rename_i h; rw [h] at h1 h2; exact ⟨fun j => (runOn_closes _ _ _ j).trans (h1 j), (runOn_objs _ _ _).trans h2⟩

theorem runCommand_closes (k : Cls S D A R H) (s : Srv S H) (c : Conn) (i : SId) (cmd : Text) (d : D) :
    (∀ j, closes (runCommand k s c i cmd d).1 j = closes s j) ∧ (runCommand k s c i cmd d).1.objs = s.objs := by
  unfold runCommand
  have h1 := runOn_closes s i (k.readArgs d)
  have h2 := runOn_objs s i (k.readArgs d)
  split
  · rename_i h; rw [h] at h1 h2; exact ⟨h1, h2⟩
  · rename_i s1 args kwargs h
    rw [h] at h1 h2
    simp only at h1 h2 ⊢
    have h3 := runOn_closes ({ s1 with calls := s1.calls ++ [(c, i, cmd)] } : Srv S H) i (k.call cmd args kwargs)
    have h4 := runOn_objs ({ s1 with calls := s1.calls ++ [(c, i, cmd)] } : Srv S H) i (k.call cmd args kwargs)
    split
    · rename_i h'; rw [h'] at h3 h4; exact ⟨fun j => (h3 j).trans (h1 j), h4.trans h2⟩
    · rename_i h'; rw [h'] at h3 h4
      exact ⟨fun j => (runOn_closes _ _ _ j).trans ((h3 j).trans (h1 j)), (runOn_objs _ _ _).trans (h4.trans h2)⟩

/-- Sessions in use are open, all others have been closed exactly once. -/
def Orderly (s : Srv S H) : Prop := ∀ i, i < s.next → ((∃ c, s.objs c = some i) → closes s i = some 0) ∧ ((¬ ∃ c, s.objs c = some i) → closes s i = some 1)

theorem orderly_same {s s' : Srv S H} (h : Orderly s) (hn : s'.next = s.next) (ho : s'.objs = s.objs) (hc : ∀ j, closes s' j = closes s j) : Orderly s' := by
  intro i hi
  rw [ho, hc]
  exact h i (hn ▸ hi)

/-- Requests that do not break the life cycle: an `_init` request for a connection that has a session already succeeds in constructing the new one,
and after constructing a session the hashes in the request are valid. -/
def Tidy (k : Cls S D A R H) (cfg : Option (List (Text × D))) (s : Srv S H) : Event D H → Prop
  | .request c cmd d => cmd = "_init".toList → ∀ x, k.parse d = .ok x →
      (∀ e, newSession k cfg x c = .error e → s.objs c = none) ∧ (∀ z, newSession k cfg x c = .ok z → ∃ h, newHashes k (s.hashes c) x.hashes = .ok h)
  | _ => True

def TidyRun (k : Cls S D A R H) (cfg : Option (List (Text × D))) : List (Event D H) → Srv S H → Prop
  | [], _ => True
  | e :: es, s => Tidy k cfg s e ∧ TidyRun k cfg es (step k cfg s e).1

theorem next_of_finish (k : Cls S D A R H) (s : Srv S H) (i : SId) (root : Option D) : (finishInit k s i root).1.next = s.next := by
  unfold finishInit
  split
  · rfl
  · rename_i r
    have h1 := (runOn_only s i (k.readRoot r)).next
    split
    · rename_i h; rw [h] at h1; exact h1
    · rename_i h; rw [h] at h1; exact (runOn_only _ _ _).next.trans h1

theorem next_of_load (k : Cls S D A R H) (s : Srv S H) (c : Conn) (d : D) : (loadFromSession k s c d).1.next = s.next := by
  unfold loadFromSession
  split
  · rfl
  · rename_i i _
    have h1 := (runOn_only s i (k.load d)).next
    split
    · rename_i h; rw [h] at h1; exact h1
    · rename_i h; rw [h] at h1; exact (runOn_only _ _ _).next.trans h1

theorem next_of_cmd (k : Cls S D A R H) (s : Srv S H) (c : Conn) (i : SId) (cmd : Text) (d : D) : (runCommand k s c i cmd d).1.next = s.next := by
  unfold runCommand
  have h1 := (runOn_only s i (k.readArgs d)).next
  split
  · rename_i h; rw [h] at h1; exact h1
  · rename_i s1 args kwargs h
    rw [h] at h1
    simp only at h1 ⊢
    have h3 := (runOn_only ({ s1 with calls := s1.calls ++ [(c, i, cmd)] } : Srv S H) i (k.call cmd args kwargs)).next
    split
    · rename_i h'; rw [h'] at h3; exact h3.trans h1
    · rename_i h'; rw [h'] at h3; exact (runOn_only _ _ _).next.trans (h3.trans h1)

theorem closeSession_ok (k : Cls S D A R H) (hclose : ∀ x, (k.close x).2 = .ok ()) {s : Srv S H} {i : SId} (h : s.heap i ≠ none) : (closeSession k s i).2 = .ok () := by
  unfold closeSession
  split
  · rename_i h'; exact absurd h' h
  · exact hclose _

theorem init_orderly (k : Cls S D A R H) (cfg : Option (List (Text × D))) (hclose : ∀ x, (k.close x).2 = .ok ()) {s : Srv S H} (hi : Inv s) (h : Orderly s)
    {c : Conn} {d : D} (ht : Tidy k cfg s (.request c "_init".toList d)) : Orderly (initSession k cfg s c d).1 := by
  unfold initSession
  cases hp : k.parse d with
  | error e => exact h
  | ok x =>
    obtain ⟨t1, t2⟩ := ht rfl x hp
    simp only
    have hr : (closeOld k s c).2 = .ok () := by
      unfold closeOld
      split
      · rfl
      · rename_i i ho
        exact closeSession_ok k hclose ((hi.heap i).2 (hi.live c i ho))
    have hob : (closeOld k s c).1.objs = s.objs ∧ (closeOld k s c).1.next = s.next := (closeOld_agrees k c hi).2
    have hh : (closeOld k s c).1.hashes = s.hashes := by
      unfold closeOld
      split
      · rfl
      · exact (closeSession_only k s _).hashes
    have hc : ∀ j, closes (closeOld k s c).1 j = if s.objs c = some j then (closes s j).map (· + 1) else closes s j := by
      intro j
      unfold closeOld
      split
      · rename_i ho; rw [ho]; rfl
      · rename_i i ho
        rw [closeSession_closes, ho]
        by_cases hj : j = i
        · subst hj; simp
        · have : ¬ (some i = some j) := by
            intro e; injection e with e; exact hj e.symm
          rw [if_neg hj, if_neg this]
    generalize closeOld k s c = p at hr hob hh hc
    obtain ⟨s1, r1⟩ := p
    simp only at hr hob hh hc
    subst hr
    simp only
    cases hn : newSession k cfg x c with
    | error e =>
      have hnone := t1 e hn
      refine orderly_same h hob.2 hob.1 (fun j => ?_)
      rw [hc, hnone, if_neg (by simp)]
    | ok z =>
      simp only
      obtain ⟨h', hok⟩ := t2 z hn
      rw [hh, hok]
      simp only
      intro i hlt
      rw [next_of_finish] at hlt
      rw [finishInit_objs, finishInit_closes]
      have hlt' : i < s.next + 1 := by rw [← hob.2]; exact hlt
      have hobj : ∀ c', (register (alloc s1 z) c s1.next h').objs c' = if c' = c then some s1.next else s.objs c' := by
        intro c'
        show upd s1.objs c (some s1.next) c' = _
        rw [hob.1]; rfl
      have hcl : closes (register (alloc s1 z) c s1.next h') i = if i = s.next then some 0 else closes s1 i := by
        show (upd s1.heap s1.next (some (z, 0)) i).map Prod.snd = _
        rw [hob.2]
        by_cases hi' : i = s.next
        · subst hi'; rw [upd_same, if_pos rfl]; rfl
        · rw [upd_other _ _ hi', if_neg hi']; rfl
      rw [hcl]
      by_cases hi' : i = s.next
      · rw [if_pos hi']
        refine ⟨fun _ => rfl, fun hno => absurd ⟨c, ?_⟩ hno⟩
        rw [hobj, if_pos rfl, hob.2, hi']
      · rw [if_neg hi', hc]
        have hlt2 : i < s.next := Nat.lt_of_le_of_ne (Nat.lt_succ_iff.1 hlt') hi'
        obtain ⟨a1, a2⟩ := h i hlt2
        constructor
        · rintro ⟨c', hc'⟩
          rw [hobj] at hc'
          by_cases hcc : c' = c
          · rw [if_pos hcc] at hc'
            injection hc' with hc'
            exact absurd (by rw [← hc', hob.2]) hi'
          · rw [if_neg hcc] at hc'
            rw [if_neg (fun hk => hcc (hi.own _ _ _ hc' hk))]
            exact a1 ⟨c', hc'⟩
        · intro hno
          by_cases hk : s.objs c = some i
          · rw [if_pos hk, a1 ⟨c, hk⟩]; rfl
          · rw [if_neg hk]
            apply a2
            rintro ⟨c', hc'⟩
            apply hno
            refine ⟨c', ?_⟩
            have hcc : c' ≠ c := by rintro rfl; exact hk hc'
            rw [hobj, if_neg hcc]
            exact hc'

theorem disconnect_orderly (k : Cls S D A R H) (hclose : ∀ x, (k.close x).2 = .ok ()) {s : Srv S H} (hi : Inv s) (h : Orderly s) (c : Conn) :
    Orderly (handleDisconnect k s c) ∧ (handleDisconnect k s c).objs c = none := by
  unfold handleDisconnect
  generalize hs0 : ({ s with hashes := upd s.hashes c none } : Srv S H) = s0
  have i0 : Inv s0 := by subst hs0; exact ⟨hi.live, hi.own, hi.heap⟩
  have h0 : Orderly s0 := by subst hs0; exact h
  simp only
  cases hc : s0.objs c with
  | none => exact ⟨h0, hc⟩
  | some i =>
    have hok := closeSession_ok k hclose ((i0.heap i).2 (i0.live c i hc))
    have hcl := closeSession_closes k s0 i
    have hon := closeSession_only k s0 i
    simp only
    generalize closeSession k s0 i = p at hok hcl hon
    obtain ⟨s1, r1⟩ := p
    simp only at hok hcl hon
    subst hok
    refine ⟨?_, upd_same _ _ _⟩
    intro j hj
    have hj' : j < s0.next := by rw [← hon.next]; exact hj
    have hob : ∀ c', (unregister s1 c).objs c' = if c' = c then none else s0.objs c' := by
      intro c'
      show upd s1.objs c none c' = _
      rw [hon.objs]; rfl
    show ((∃ c', (unregister s1 c).objs c' = some j) → closes s1 j = some 0) ∧ ((¬ ∃ c', (unregister s1 c).objs c' = some j) → closes s1 j = some 1)
    rw [hcl]
    obtain ⟨a1, a2⟩ := h0 j hj'
    by_cases hji : j = i
    · subst hji
      rw [if_pos rfl, a1 ⟨c, hc⟩]
      refine ⟨?_, fun _ => rfl⟩
      rintro ⟨c', hc'⟩
      rw [hob] at hc'
      split at hc'
      · cases hc'
      · rename_i hne
        exact absurd (i0.own _ _ _ hc' hc) hne
    · rw [if_neg hji]
      constructor
      · rintro ⟨c', hc'⟩
        rw [hob] at hc'
        split at hc'
        · cases hc'
        · exact a1 ⟨c', hc'⟩
      · intro hno
        apply a2
        rintro ⟨c', hc'⟩
        apply hno
        refine ⟨c', ?_⟩
        rw [hob, if_neg]
        · exact hc'
        · rintro rfl
          rw [hc'] at hc
          injection hc with hc
          exact hji hc

theorem step_orderly (k : Cls S D A R H) (cfg : Option (List (Text × D))) (hclose : ∀ x, (k.close x).2 = .ok ()) {s : Srv S H} (hi : Inv s) (h : Orderly s)
    {e : Event D H} (ht : Tidy k cfg s e) : Orderly (step k cfg s e).1 := by
  cases e with
  | connect c h' => exact h
  | disconnect c => exact (disconnect_orderly k hclose hi h c).1
  | request c cmd d =>
    show Orderly (handleRequest k cfg s c cmd d).1
    unfold handleRequest
    split
    · exact h
    · split
      · rename_i hcmd
        subst hcmd
        exact init_orderly k cfg hclose hi h ht
      · split
        · have := loadFromSession_closes k s c d
          exact orderly_same h (next_of_load k s c d) this.2 this.1
        · split
          · rename_i i _
            have := runCommand_closes k s c i cmd d
            exact orderly_same h (next_of_cmd k s c i cmd d) this.2 this.1
          · exact h

/-- **C09.** In every history of connections, requests (failing or not) and disconnects: sessions in use have not been closed, and every session that is no longer in use has
been closed exactly once. Partial: an `_init` request must not fail while it replaces a session, nor after the constructor, and `close` must not raise;
see `failed_reinit_keeps_closed_session`, `session_leaked`, `failing_close_keeps_session`. -/
theorem closed_exactly_once_partial (k : Cls S D A R H) (cfg : Option (List (Text × D))) (hclose : ∀ x, (k.close x).2 = .ok ()) (es : List (Event D H))
    (ht : TidyRun k cfg es .empty) (i : SId) (hi : i < (run k cfg es .empty).1.next) :
    ((∃ c, (run k cfg es .empty).1.objs c = some i) → closes (run k cfg es .empty).1 i = some 0) ∧
    ((¬ ∃ c, (run k cfg es .empty).1.objs c = some i) → closes (run k cfg es .empty).1 i = some 1) := by
  have key : ∀ (es : List (Event D H)) (s : Srv S H), Inv s → Orderly s → TidyRun k cfg es s → Orderly (run k cfg es s).1 := by
    intro es
    induction es with
    | nil => intro s _ h _; exact h
    | cons e es ih =>
      intro s hi h ht
      exact ih _ (step_agrees k cfg hi e).inv (step_orderly k cfg hclose hi h ht.1) ht.2
  exact key es .empty inv_empty (fun i hi => absurd hi (Nat.not_lt_zero i)) ht i hi

/-- **C09.** After a disconnect the connection has no session, whatever happened before, unless `close` raises. -/
theorem disconnect_removes_session (k : Cls S D A R H) (cfg : Option (List (Text × D))) (hclose : ∀ x, (k.close x).2 = .ok ()) (es : List (Event D H)) (c : Conn) :
    view (run k cfg (es ++ [.disconnect c]) .empty).1 c = (none, none) := by
  have key : ∀ (es : List (Event D H)) (s : Srv S H), (run k cfg (es ++ [.disconnect c]) s).1 = handleDisconnect k (run k cfg es s).1 c := by
    intro es
    induction es with
    | nil => intro s; rfl
    | cons e es ih => intro s; exact ih _
  rw [key]
  have := (handleDisconnect_agrees k (run_inv k cfg es inv_empty) c).here
  simp only at this
  rw [this]
  unfold ldisconnect lclose
  split
  · rename_i h
    split at h
    · cases h
    · injection h with _ h2
      rw [hclose] at h2; cases h2
  · rfl

def Event.request? : Event D H → Option Conn
  | .request c _ _ => some c
  | _ => none

/-- **C09.** Every request is answered, exactly once and in order. -/
theorem every_request_answered (k : Cls S D A R H) (cfg : Option (List (Text × D))) : ∀ (es : List (Event D H)) (s : Srv S H), (run k cfg es s).2.map Prod.fst = es.filterMap Event.request? := by
  intro es
  induction es with
  | nil => intro s; rfl
  | cons e es ih =>
    intro s
    have := ih (step k cfg s e).1
    cases e with
    | connect => exact this
    | disconnect => exact this
    | request c cmd d => exact congrArg (c :: ·) this

/-- **C09.** An exception raised by a session method is reported, and the state of the session is what the method left. -/
theorem exception_reported (k : Cls S D A R H) (cfg : Option (List (Text × D))) {s : Srv S H} {c : Conn} {i : SId} {cmd : Text} {d : D} {x : S} {n : Nat} {args : List D}
    {kwargs : List (Text × D)} {e : PyErr} (ha : allowed k s c cmd = some i) (hx : s.heap i = some (x, n)) (hr : (k.readArgs d x).2 = .ok (args, kwargs))
    (hcall : (k.call cmd args kwargs (k.readArgs d x).1).2 = .error e) :
    (handleRequest k cfg s c cmd d).2 = .error e ∧ (handleRequest k cfg s c cmd d).1.heap i = some ((k.call cmd args kwargs (k.readArgs d x).1).1, n) := by
  have hne : cmd.head? ≠ some '_' := ((allowed_spec k s c cmd i).1 ha).1
  have h1 : cmd ≠ "_handshake".toList := by rintro rfl; exact hne rfl
  have h2 : cmd ≠ "_init".toList := by rintro rfl; exact hne rfl
  have h3 : cmd ≠ "_load".toList := by rintro rfl; exact hne rfl
  unfold handleRequest
  rw [if_neg h1, if_neg h2, if_neg h3, ha]
  simp only
  unfold runCommand
  simp only [runOn, hx, hr, upd_same, hcall, Resp.of, and_self]

/-! ### witnesses -/

/-- A small session class: the number of times its method `run` was called. -/
def demo (closeFails : Bool) : Cls Nat (InitData Nat) Nat Nat Unit where
  handshake := fun _ _ => .ok 0
  parse := fun d => .ok ⟨none, d.args.map (fun _ => []), d.kwargs.map (fun _ => []), d.hashes.map (fun _ => d), d.root.map (fun _ => d)⟩
  wantsConn := false
  wantsAuth := false
  construct := fun _ _ => .ok 0
  addHashes := fun _ h => .ok h
  readRoot := fun _ s => (s, .ok ())
  close := fun s => (s, if closeFails then .error .runtimeError else .ok ())
  attr := fun _ n => if n = "run".toList then some true else none
  wrapperAttr := fun n => n = "load".toList
  readArgs := fun _ s => (s, .ok ([], []))
  call := fun _ _ _ s => (s + 1, .ok s)
  load := fun _ s => (s, .ok s)
  answer := fun _ s => (s, .ok s)
  truthy := fun _ => true

def goodInit : InitData Nat := ⟨none, some [], some [], some 0, some 0⟩
def noArgs : InitData Nat := ⟨none, none, some [], some 0, some 0⟩
def noHashes : InitData Nat := ⟨none, some [], some [], none, some 0⟩

/-- A history that meets the hypotheses: two connections, re-initialisation, a failing command, a disconnect. -/
example : TidyRun (demo false) none [.connect 1 (), .request 1 "_init".toList goodInit, .connect 2 (), .request 2 "_init".toList goodInit, .request 1 "run".toList goodInit,
    .request 2 "load".toList goodInit, .request 2 "_init".toList goodInit, .disconnect 1] .empty := by
  refine ⟨trivial, ?_, trivial, ?_, ?_, ?_, ?_, trivial, trivial⟩
  all_goals (intro hcmd x hx; first | (exfalso; revert hcmd; decide +kernel) | (injection hx with hx; subst hx; exact ⟨fun e he => (by cases he), fun z _ => ⟨(), rfl⟩⟩))

/-- Finding: if a second `_init` fails, the old session is already closed but stays registered: its methods can still be called, and on disconnect it is closed a second time. -/
theorem failed_reinit_keeps_closed_session :
    let es : List (Event (InitData Nat) Unit) := [.connect 1 (), .request 1 "_init".toList goodInit, .request 1 "_init".toList noArgs, .request 1 "run".toList goodInit]
    let s := (run (demo false) none es .empty).1
    s.objs 1 = some 0 ∧ closes s 0 = some 1 ∧ s.calls = [(1, 0, "run".toList)] ∧ closes (handleDisconnect (demo false) s 1) 0 = some 2 := by
  decide +kernel

/-- Finding: an `_init` request without file hashes constructs a session that is never registered and never closed. -/
theorem session_leaked :
    let es : List (Event (InitData Nat) Unit) := [.connect 1 (), .request 1 "_init".toList noHashes, .disconnect 1]
    let s := (run (demo false) none es .empty).1
    s.next = 1 ∧ s.objs 1 = none ∧ closes s 0 = some 0 := by
  decide +kernel

/-- Finding: if `close` raises on disconnect, the session stays registered for a connection that does not exist any more. -/
theorem failing_close_keeps_session :
    let es : List (Event (InitData Nat) Unit) := [.connect 1 (), .request 1 "_init".toList goodInit, .disconnect 1]
    let s := (run (demo true) none es .empty).1
    s.objs 1 = some 0 ∧ closes s 0 = some 1 := by
  decide +kernel

/-- The demo class: `run` is executed, private names, names of the generic interface and unknown names are not. -/
example : let s := (run (demo false) none [.connect 1 (), .request 1 "_init".toList goodInit] .empty).1
    allowed (demo false) s 1 "run".toList = some 0 ∧ allowed (demo false) s 1 "_run".toList = none ∧ allowed (demo false) s 1 "load".toList = none ∧
    allowed (demo false) s 2 "run".toList = none := by
  decide +kernel

end Osp.Server
