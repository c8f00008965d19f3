import Verif.Server.Model
/-!
# Remote commands (C07), isolation of connections (C08), life cycle of sessions (C09)
-/
namespace Osp.Server
variable {S D A R H : Type}

/-! ### invariant -/

/-- Every connection has its own session object. -/
structure Inv (s : Srv S H) : Prop where
  live : ∀ c i, s.objs c = some i → i < s.next
  own : ∀ c c' i, s.objs c = some i → s.objs c' = some i → c = c'
  heap : ∀ i, s.heap i ≠ none ↔ i < s.next

theorem upd_same {α β : Type} [DecidableEq α] (f : α → β) (a : α) (b : β) : upd f a b a = b := by simp [upd]
theorem upd_other {α β : Type} [DecidableEq α] (f : α → β) {a x : α} (b : β) (h : x ≠ a) : upd f a b x = f x := by simp [upd, h]

/-- What one connection can see of the server. -/
def view (s : Srv S H) (c : Conn) : Option (S × Nat) × Option H := ((s.objs c).bind s.heap, s.hashes c)

theorem inv_empty : Inv (Srv.empty : Srv S H) := by
  refine ⟨?_, ?_, ?_⟩
  · intro c i h; cases h
  · intro c c' i h; cases h
  · intro i; simp [Srv.empty]

/-- `s'` differs from `s` only in the session object `i`. -/
structure Only (i : SId) (s s' : Srv S H) : Prop where
  objs : s'.objs = s.objs
  next : s'.next = s.next
  hashes : s'.hashes = s.hashes
  heap : ∀ j, j ≠ i → s'.heap j = s.heap j
  some : s'.heap i ≠ none ↔ s.heap i ≠ none

theorem Only.refl (i : SId) (s : Srv S H) : Only i s s := ⟨rfl, rfl, rfl, fun _ _ => rfl, Iff.rfl⟩

theorem Only.trans {i : SId} {s s' s'' : Srv S H} (h : Only i s s') (h' : Only i s' s'') : Only i s s'' :=
  ⟨h'.objs.trans h.objs, h'.next.trans h.next, h'.hashes.trans h.hashes, fun j hj => (h'.heap j hj).trans (h.heap j hj), h'.some.trans h.some⟩

theorem Only.inv {i : SId} {s s' : Srv S H} (h : Only i s s') (hi : Inv s) : Inv s' := by
  refine ⟨?_, ?_, ?_⟩
  · rw [h.objs, h.next]; exact hi.live
  · rw [h.objs]; exact hi.own
  · intro j
    rw [h.next, ← hi.heap j]
    by_cases hj : j = i
    · subst hj; exact h.some
    · rw [h.heap j hj]

theorem Only.view_other {i : SId} {s s' : Srv S H} (h : Only i s s') (hi : Inv s) {c c' : Conn} (hc : s.objs c = Option.some i) (hne : c' ≠ c) : view s' c' = view s c' := by
  unfold view
  rw [h.objs, h.hashes]
  cases ho : s.objs c' with
  | none => rfl
  | some j =>
    have : j ≠ i := by
      rintro rfl
      exact hne (hi.own _ _ _ ho hc)
    simp only [Option.bind_some]
    rw [h.heap j this]

theorem runOn_only {α : Type} (s : Srv S H) (i : SId) (f : Op S α) : Only i s (runOn s i f).1 := by
  unfold runOn
  split
  · exact Only.refl i s
  · rename_i x n h
    refine ⟨rfl, rfl, rfl, fun j hj => upd_other _ _ hj, ?_⟩
    simp [upd_same, h]

theorem closeSession_only (k : Cls S D A R H) (s : Srv S H) (i : SId) : Only i s (closeSession k s i).1 := by
  unfold closeSession
  split
  · exact Only.refl i s
  · rename_i x n h
    refine ⟨rfl, rfl, rfl, fun j hj => upd_other _ _ hj, ?_⟩
    simp [upd_same, h]

/-! ### the server as seen by one connection -/

abbrev Local (S H : Type) := Option (S × Nat) × Option H

def lrun {α : Type} (o : Option (S × Nat)) (f : Op S α) : Option (S × Nat) × Except PyErr α :=
  match o with
  | none => (none, .error .exception)
  | some (x, n) => (some ((f x).1, n), (f x).2)

def lclose (k : Cls S D A R H) (o : Option (S × Nat)) : Option (S × Nat) × Except PyErr Unit :=
  match o with
  | none => (none, .ok ())
  | some (x, n) => (some ((k.close x).1, n + 1), (k.close x).2)

def lfinish (k : Cls S D A R H) (z : S) (h : H) (root : Option D) : Local S H × Except PyErr R :=
  match root with
  | none => ((some (z, 0), some h), .error .keyError)
  | some r => match lrun (some (z, 0)) (k.readRoot r) with
    | (o, .error e) => ((o, some h), .error e)
    | (o, .ok ()) => let q := lrun o (k.answer none); ((q.1, some h), q.2)

def linit (k : Cls S D A R H) (cfg : Option (List (Text × D))) (c : Conn) (l : Local S H) (d : D) : Local S H × Except PyErr R :=
  match k.parse d with
  | .error e => (l, .error e)
  | .ok x => match lclose k l.1 with
    | (o, .error e) => ((o, l.2), .error e)
    | (o, .ok ()) => match newSession k cfg x c with
      | .error e => ((o, l.2), .error e)
      | .ok z => match newHashes k l.2 x.hashes with
        | .error e => ((o, l.2), .error e)
        | .ok h => lfinish k z h x.root

def lload (k : Cls S D A R H) (l : Local S H) (d : D) : Local S H × Except PyErr R :=
  match l.1 with
  | none => (l, .error .keyError)
  | some _ => match lrun l.1 (k.load d) with
    | (o, .error e) => ((o, l.2), .error e)
    | (o, .ok a) => let q := lrun o (k.answer (some a)); ((q.1, l.2), q.2)

def lcmd (k : Cls S D A R H) (l : Local S H) (cmd : Text) (d : D) : Local S H × Except PyErr R :=
  match lrun l.1 (k.readArgs d) with
  | (o, .error e) => ((o, l.2), .error e)
  | (o, .ok (args, kwargs)) => match lrun o (k.call cmd args kwargs) with
    | (o, .error e) => ((o, l.2), .error e)
    | (o, .ok a) => let q := lrun o (k.answer (if k.truthy a then some a else none)); ((q.1, l.2), q.2)

def lallowed (k : Cls S D A R H) (l : Local S H) (cmd : Text) : Bool :=
  match cmd with
  | '_' :: _ => false
  | _ => match l.1 with
    | none => false
    | some (x, _) => match k.attr x cmd with
      | none => false
      | some callable => !k.wrapperAttr cmd && callable

def lreq (k : Cls S D A R H) (cfg : Option (List (Text × D))) (c : Conn) (l : Local S H) (cmd : Text) (d : D) : Local S H × Resp R :=
  if cmd = "_handshake".toList then (l, Resp.of (k.handshake d c))
  else if cmd = "_init".toList then ((linit k cfg c l d).1, Resp.of (linit k cfg c l d).2)
  else if cmd = "_load".toList then ((lload k l d).1, Resp.of (lload k l d).2)
  else if lallowed k l cmd then ((lcmd k l cmd d).1, Resp.of (lcmd k l cmd d).2)
  else (l, .invalid)

theorem runOn_view {α : Type} {s : Srv S H} {c : Conn} {i : SId} (hc : s.objs c = some i) (hi : Inv s) (f : Op S α) :
    view (runOn s i f).1 c = ((lrun (view s c).1 f).1, (view s c).2) ∧ (runOn s i f).2 = (lrun (view s c).1 f).2 := by
  have hn : s.heap i ≠ none := (hi.heap i).2 (hi.live c i hc)
  cases h : s.heap i with
  | none => exact absurd h hn
  | some p =>
    obtain ⟨x, n⟩ := p
    simp only [runOn, h, view, hc, Option.bind_some, lrun, upd_same, and_self]

theorem closeSession_view {s : Srv S H} {c : Conn} {i : SId} (k : Cls S D A R H) (hc : s.objs c = some i) (hi : Inv s) :
    view (closeSession k s i).1 c = ((lclose k (view s c).1).1, (view s c).2) ∧ (closeSession k s i).2 = (lclose k (view s c).1).2 := by
  have hn : s.heap i ≠ none := (hi.heap i).2 (hi.live c i hc)
  cases h : s.heap i with
  | none => exact absurd h hn
  | some p =>
    obtain ⟨x, n⟩ := p
    simp only [closeSession, h, view, hc, Option.bind_some, lclose, upd_same, and_self]

/-- Result of code run for connection `c`: the invariant is kept, the other connections see no change, and what `c` sees is the local result. -/
structure Agrees {α : Type} (s : Srv S H) (c : Conn) (p : Srv S H × α) (q : Local S H × α) : Prop where
  inv : Inv p.1
  other : ∀ c', c' ≠ c → view p.1 c' = view s c'
  here : view p.1 c = q.1
  res : p.2 = q.2

theorem runOn_agrees {α : Type} {s0 s : Srv S H} {c : Conn} {i : SId} (ho : ∀ c', c' ≠ c → view s c' = view s0 c') (hc : s.objs c = some i) (hi : Inv s) (f : Op S α) :
    Agrees s0 c (runOn s i f) (((lrun (view s c).1 f).1, (view s c).2), (lrun (view s c).1 f).2) :=
  ⟨(runOn_only s i f).inv hi, fun c' h => ((runOn_only s i f).view_other hi hc h).trans (ho c' h), (runOn_view hc hi f).1, (runOn_view hc hi f).2⟩

theorem closeOld_agrees (k : Cls S D A R H) {s : Srv S H} (c : Conn) (hi : Inv s) :
    Agrees s c (closeOld k s c) (((lclose k (view s c).1).1, (view s c).2), (lclose k (view s c).1).2) ∧ (closeOld k s c).1.objs = s.objs ∧ (closeOld k s c).1.next = s.next := by
  unfold closeOld
  split
  · rename_i h
    refine ⟨⟨hi, fun _ _ => rfl, ?_, ?_⟩, rfl, rfl⟩ <;> simp [view, h, lclose]
  · rename_i i h
    have o := closeSession_only k s i
    exact ⟨⟨o.inv hi, fun c' h' => o.view_other hi h h', (closeSession_view k h hi).1, (closeSession_view k h hi).2⟩, o.objs, o.next⟩

/-- A new session object: nobody sees it. -/
theorem alloc_view {s : Srv S H} (hi : Inv s) (z : S) : Inv (alloc s z) ∧ ∀ c, view (alloc s z) c = view s c := by
  refine ⟨⟨fun c i h => Nat.lt_succ_of_lt (hi.live c i h), hi.own, ?_⟩, ?_⟩
  · intro i
    show upd s.heap s.next (some (z, 0)) i ≠ none ↔ i < s.next + 1
    by_cases h : i = s.next
    · subst h; simp [upd_same]
    · rw [upd_other _ _ h, hi.heap i, Nat.lt_succ_iff]
      exact ⟨Nat.le_of_lt, fun h' => Nat.lt_of_le_of_ne h' h⟩
  · intro c
    show ((s.objs c).bind (upd s.heap s.next (some (z, 0))), s.hashes c) = ((s.objs c).bind s.heap, s.hashes c)
    cases h : s.objs c with
    | none => rfl
    | some i =>
      have := hi.live c i h
      simp only [Option.bind_some]
      rw [upd_other _ _ (Nat.ne_of_lt this)]

theorem register_view {s : Srv S H} (hi : Inv s) (c : Conn) (i : SId) (hl : i < s.next) (hf : ∀ c', s.objs c' ≠ some i) (h : H) :
    Inv (register s c i h) ∧ (∀ c', c' ≠ c → view (register s c i h) c' = view s c') ∧ view (register s c i h) c = (s.heap i, some h) := by
  have ho : (register s c i h).objs = upd s.objs c (some i) := rfl
  refine ⟨⟨?_, ?_, hi.heap⟩, ?_, ?_⟩
  · intro c' j hj
    rw [ho] at hj
    by_cases hc : c' = c
    · subst hc
      rw [upd_same] at hj
      injection hj with hj
      subst hj
      exact hl
    · rw [upd_other _ _ hc] at hj
      exact hi.live c' j hj
  · intro a b j ha hb
    rw [ho] at ha hb
    by_cases h1 : a = c
    · by_cases h2 : b = c
      · rw [h1, h2]
      · subst h1
        rw [upd_same] at ha
        rw [upd_other _ _ h2] at hb
        exact absurd (hb.trans ha.symm) (hf b)
    · by_cases h2 : b = c
      · subst h2
        rw [upd_same] at hb
        rw [upd_other _ _ h1] at ha
        exact absurd (ha.trans hb.symm) (hf a)
      · rw [upd_other _ _ h1] at ha
        rw [upd_other _ _ h2] at hb
        exact hi.own a b j ha hb
  · intro c' hc
    show ((upd s.objs c (some i) c').bind s.heap, upd s.hashes c (some h) c') = view s c'
    rw [upd_other _ _ hc, upd_other _ _ hc]
    rfl
  · show ((upd s.objs c (some i) c).bind s.heap, upd s.hashes c (some h) c) = _
    simp only [upd_same, Option.bind_some]

theorem unregister_view {s : Srv S H} (hi : Inv s) (c : Conn) : Inv (unregister s c) ∧ (∀ c', c' ≠ c → view (unregister s c) c' = view s c') ∧ view (unregister s c) c = (none, (view s c).2) := by
  have ho : (unregister s c).objs = upd s.objs c none := rfl
  refine ⟨⟨?_, ?_, hi.heap⟩, ?_, ?_⟩
  · intro c' j hj
    rw [ho] at hj
    by_cases h : c' = c
    · subst h; rw [upd_same] at hj; cases hj
    · rw [upd_other _ _ h] at hj; exact hi.live c' j hj
  · intro a b j ha hb
    rw [ho] at ha hb
    by_cases h : a = c
    · subst h; rw [upd_same] at ha; cases ha
    · by_cases h' : b = c
      · subst h'; rw [upd_same] at hb; cases hb
      · rw [upd_other _ _ h] at ha
        rw [upd_other _ _ h'] at hb
        exact hi.own a b j ha hb
  · intro c' h
    show ((upd s.objs c none c').bind s.heap, s.hashes c') = _
    rw [upd_other _ _ h]
    rfl
  · show ((upd s.objs c none c).bind s.heap, s.hashes c) = _
    rw [upd_same]
    rfl

theorem runOn_objs {α : Type} (s : Srv S H) (i : SId) (f : Op S α) : (runOn s i f).1.objs = s.objs := (runOn_only s i f).objs

theorem finishInit_agrees (k : Cls S D A R H) {s0 s : Srv S H} (hi : Inv s) {c : Conn} {i : SId} {z : S} {h : H} (ho : ∀ c', c' ≠ c → view s c' = view s0 c')
    (hc : s.objs c = some i) (hv : view s c = (some (z, 0), some h)) (root : Option D) : Agrees s0 c (finishInit k s i root) (lfinish k z h root) := by
  unfold finishInit lfinish
  cases root with
  | none => exact ⟨hi, ho, hv, rfl⟩
  | some r =>
    simp only
    have a1 := runOn_agrees ho hc hi (k.readRoot r)
    have hob := runOn_objs s i (k.readRoot r)
    rw [hv] at a1
    generalize runOn s i (k.readRoot r) = p4 at a1 hob
    obtain ⟨s4, r4⟩ := p4
    simp only at a1
    generalize lrun (some (z, 0)) (k.readRoot r) = q4 at a1
    obtain ⟨o4, r4'⟩ := q4
    obtain ⟨i4, ho4, v4, e4⟩ := a1
    simp only at i4 ho4 v4 e4 hob
    subst e4
    cases r4 with
    | error e => exact ⟨i4, ho4, v4, rfl⟩
    | ok u =>
      have a2 := runOn_agrees ho4 (hob ▸ hc) i4 (k.answer none)
      rw [v4] at a2
      exact a2

theorem initSession_agrees (k : Cls S D A R H) (cfg : Option (List (Text × D))) {s : Srv S H} (hi : Inv s) (c : Conn) (d : D) :
    Agrees s c (initSession k cfg s c d) (linit k cfg c (view s c) d) := by
  unfold initSession linit
  cases hp : k.parse d with
  | error e => exact ⟨hi, fun _ _ => rfl, rfl, rfl⟩
  | ok x =>
    simp only
    obtain ⟨hA, hobjs, hnext⟩ := closeOld_agrees k c hi
    generalize hco : closeOld k s c = p at hA hobjs hnext
    obtain ⟨s1, r1⟩ := p
    generalize hl : lclose k (view s c).1 = q at hA
    obtain ⟨o, r⟩ := q
    obtain ⟨i1, o1, v1, e1⟩ := hA
    simp only at i1 o1 v1 e1 hobjs hnext
    subst e1
    cases r1 with
    | error e => exact ⟨i1, o1, v1, rfl⟩
    | ok u =>
      cases hn : newSession k cfg x c with
      | error e => exact ⟨i1, o1, v1, rfl⟩
      | ok z =>
        simp only
        obtain ⟨i2, v2⟩ := alloc_view i1 z
        have hh : s1.hashes c = (view s c).2 := congrArg Prod.snd v1
        rw [hh]
        cases h4 : newHashes k (view s c).2 x.hashes with
        | error e => exact ⟨i2, fun c' hc => (v2 c').trans (o1 c' hc), (v2 c).trans v1, rfl⟩
        | ok h' =>
          have hf : ∀ c', (alloc s1 z).objs c' ≠ some s1.next := fun c' hc' => absurd (i1.live c' _ hc') (Nat.lt_irrefl _)
          obtain ⟨i3, o3, v3⟩ := register_view i2 c s1.next (Nat.lt_succ_self _) hf h'
          rw [show (alloc s1 z).heap s1.next = some (z, 0) from upd_same _ _ _] at v3
          have hob : (register (alloc s1 z) c s1.next h').objs c = some s1.next := upd_same _ _ _
          exact finishInit_agrees k i3 (fun c' hc => (o3 c' hc).trans ((v2 c').trans (o1 c' hc))) hob v3 x.root

theorem loadFromSession_agrees (k : Cls S D A R H) {s : Srv S H} (hi : Inv s) (c : Conn) (d : D) : Agrees s c (loadFromSession k s c d) (lload k (view s c) d) := by
  unfold loadFromSession lload
  cases hc : s.objs c with
  | none =>
    have : (view s c).1 = none := by simp [view, hc]
    rw [this]
    exact ⟨hi, fun _ _ => rfl, rfl, rfl⟩
  | some i =>
    have a1 := runOn_agrees (fun c' _ => rfl) hc hi (k.load d)
    have hob := runOn_objs s i (k.load d)
    obtain ⟨x, hx⟩ := Option.ne_none_iff_exists'.1 ((hi.heap i).2 (hi.live c i hc))
    have hv : (view s c).1 = some x := by simp [view, hc, hx]
    simp only
    generalize runOn s i (k.load d) = p at a1 hob
    obtain ⟨s1, r1⟩ := p
    rw [hv] at a1 ⊢
    simp only
    generalize lrun (some x) (k.load d) = q at a1
    obtain ⟨o, r⟩ := q
    obtain ⟨i1, o1, v1, e1⟩ := a1
    simp only at i1 o1 v1 e1 hob
    subst e1
    cases r1 with
    | error e => exact ⟨i1, o1, v1, rfl⟩
    | ok a =>
      have a2 := runOn_agrees o1 (hob ▸ hc) i1 (k.answer (some a))
      rw [v1] at a2
      exact a2

theorem runCommand_agrees (k : Cls S D A R H) {s : Srv S H} (hi : Inv s) {c : Conn} {i : SId} (hc : s.objs c = some i) (cmd : Text) (d : D) :
    Agrees s c (runCommand k s c i cmd d) (lcmd k (view s c) cmd d) := by
  unfold runCommand lcmd
  have a1 := runOn_agrees (fun c' _ => rfl) hc hi (k.readArgs d)
  have hob := runOn_objs s i (k.readArgs d)
  generalize runOn s i (k.readArgs d) = p at a1 hob
  obtain ⟨s1, r1⟩ := p
  generalize lrun (view s c).1 (k.readArgs d) = q at a1
  obtain ⟨o, r⟩ := q
  obtain ⟨i1, o1, v1, e1⟩ := a1
  simp only at i1 o1 v1 e1 hob
  subst e1
  cases r1 with
  | error e => exact ⟨i1, o1, v1, rfl⟩
  | ok ak =>
    obtain ⟨args, kwargs⟩ := ak
    simp only
    have i1' : Inv ({ s1 with calls := s1.calls ++ [(c, i, cmd)] } : Srv S H) := ⟨i1.live, i1.own, i1.heap⟩
    have a2 := runOn_agrees (s := ({ s1 with calls := s1.calls ++ [(c, i, cmd)] } : Srv S H)) o1 (show s1.objs c = some i from hob ▸ hc) i1' (k.call cmd args kwargs)
    have hob2 := runOn_objs ({ s1 with calls := s1.calls ++ [(c, i, cmd)] } : Srv S H) i (k.call cmd args kwargs)
    rw [show view ({ s1 with calls := s1.calls ++ [(c, i, cmd)] } : Srv S H) c = (o, (view s c).2) from v1] at a2
    generalize runOn ({ s1 with calls := s1.calls ++ [(c, i, cmd)] } : Srv S H) i (k.call cmd args kwargs) = p at a2 hob2
    obtain ⟨s2, r2⟩ := p
    simp only at a2
    generalize lrun o (k.call cmd args kwargs) = q at a2
    obtain ⟨o', r'⟩ := q
    obtain ⟨i2, o2, v2, e2⟩ := a2
    simp only at i2 o2 v2 e2 hob2
    subst e2
    cases r2 with
    | error e => exact ⟨i2, o2, v2, rfl⟩
    | ok a =>
      have a3 := runOn_agrees o2 (by rw [hob2]; exact hob ▸ hc) i2 (k.answer (if k.truthy a then some a else none))
      rw [v2] at a3
      exact a3

theorem allowed_spec (k : Cls S D A R H) (s : Srv S H) (c : Conn) (cmd : Text) (i : SId) :
    allowed k s c cmd = some i ↔ cmd.head? ≠ some '_' ∧ s.objs c = some i ∧ (∃ x n, s.heap i = some (x, n) ∧ k.attr x cmd = some true) ∧ k.wrapperAttr cmd = false := by
  unfold allowed
  split
  · simp
  · rename_i hne
    have hh : cmd.head? ≠ some '_' := by
      intro h
      cases cmd with
      | nil => simp at h
      | cons a t =>
        simp only [List.head?_cons, Option.some.injEq] at h
        subst h
        exact hne t rfl
    cases ho : s.objs c with
    | none => simp
    | some j =>
      cases hj : s.heap j with
      | none =>
        simp only [hj, reduceCtorEq, false_iff]
        rintro ⟨_, h, ⟨x, n, hx, _⟩, _⟩
        injection h with h
        subst h
        rw [hj] at hx; cases hx
      | some p =>
        obtain ⟨x, n⟩ := p
        simp only [hj]
        cases ha : k.attr x cmd with
        | none =>
          simp only [reduceCtorEq, false_iff]
          rintro ⟨_, h, ⟨y, m, hy, h2⟩, _⟩
          injection h with h
          subst h
          rw [hj] at hy
          injection hy with hy
          injection hy with hy _
          subst hy
          rw [ha] at h2; cases h2
        | some b =>
          cases hw : k.wrapperAttr cmd with
          | true => simp
          | false =>
            cases b with
            | false =>
              simp only [Bool.false_eq_true, if_false, reduceCtorEq, false_iff]
              rintro ⟨_, h, ⟨y, m, hy, h2⟩, _⟩
              injection h with h
              subst h
              rw [hj] at hy
              injection hy with hy
              injection hy with hy _
              subst hy
              rw [ha] at h2; cases h2
            | true =>
              simp only [Bool.false_eq_true, if_false, if_true, Option.some.injEq]
              constructor
              · rintro rfl
                exact ⟨hh, rfl, ⟨x, n, hj, ha⟩, trivial⟩
              · rintro ⟨_, h, _⟩
                exact h

theorem lallowed_iff (k : Cls S D A R H) (s : Srv S H) (c : Conn) (cmd : Text) : lallowed k (view s c) cmd = (allowed k s c cmd).isSome := by
  unfold lallowed allowed
  split
  · rfl
  · cases ho : s.objs c with
    | none => simp [view, ho]
    | some j =>
      simp only [view, ho, Option.bind_some]
      cases hj : s.heap j with
      | none => rfl
      | some p =>
        obtain ⟨x, n⟩ := p
        simp only
        cases k.attr x cmd with
        | none => rfl
        | some b => cases k.wrapperAttr cmd <;> cases b <;> rfl

theorem handleRequest_agrees (k : Cls S D A R H) (cfg : Option (List (Text × D))) {s : Srv S H} (hi : Inv s) (c : Conn) (cmd : Text) (d : D) :
    Agrees s c (handleRequest k cfg s c cmd d) (lreq k cfg c (view s c) cmd d) := by
  unfold handleRequest lreq
  have lift : ∀ {p : Srv S H × Except PyErr R} {q : Local S H × Except PyErr R}, Agrees s c p q → Agrees s c (p.1, Resp.of p.2) (q.1, Resp.of q.2) :=
    fun h => ⟨h.inv, h.other, h.here, congrArg Resp.of h.res⟩
  split
  · exact ⟨hi, fun _ _ => rfl, rfl, rfl⟩
  · split
    · exact lift (initSession_agrees k cfg hi c d)
    · split
      · exact lift (loadFromSession_agrees k hi c d)
      · rw [lallowed_iff]
        cases ha : allowed k s c cmd with
        | none => exact ⟨hi, fun _ _ => rfl, rfl, rfl⟩
        | some i => exact lift (runCommand_agrees k hi ((allowed_spec k s c cmd i).1 ha).2.1 cmd d)

def ldisconnect (k : Cls S D A R H) (l : Local S H) : Local S H :=
  match lclose k l.1 with
  | (o, .error _) => (o, none)
  | (_, .ok ()) => (none, none)

theorem handleDisconnect_agrees (k : Cls S D A R H) {s : Srv S H} (hi : Inv s) (c : Conn) : Agrees s c (handleDisconnect k s c, ()) (ldisconnect k (view s c), ()) := by
  unfold handleDisconnect
  generalize hs0 : ({ s with hashes := upd s.hashes c none } : Srv S H) = s0
  have i0 : Inv s0 := by subst hs0; exact ⟨hi.live, hi.own, hi.heap⟩
  have o0 : ∀ c', c' ≠ c → view s0 c' = view s c' := by
    subst hs0
    intro c' h
    simp only [view]
    rw [upd_other _ _ h]
  have v0 : view s0 c = ((view s c).1, none) := by
    subst hs0
    simp [view, upd_same]
  have b0 : s0.objs = s.objs := by rw [← hs0]
  simp only
  cases hc : s0.objs c with
  | none =>
    refine ⟨i0, o0, ?_, rfl⟩
    rw [v0]
    have : (view s c).1 = none := by simp [view, ← b0, hc]
    simp [ldisconnect, this, lclose]
  | some i =>
    have ho := closeSession_only k s0 i
    have hv := closeSession_view k hc i0
    simp only
    generalize closeSession k s0 i = p at ho hv
    obtain ⟨s1, r1⟩ := p
    rw [v0] at hv
    simp only at hv ho
    obtain ⟨hv1, hv2⟩ := hv
    unfold ldisconnect
    generalize lclose k (view s c).1 = q at hv1 hv2
    obtain ⟨o, r⟩ := q
    simp only at hv1 hv2
    subst hv2
    have i1 := ho.inv i0
    have oth : ∀ c', c' ≠ c → view s1 c' = view s c' := fun c' h => (ho.view_other i0 hc h).trans (o0 c' h)
    cases r1 with
    | error e => exact ⟨i1, oth, hv1, rfl⟩
    | ok u =>
      obtain ⟨i2, o2, v2⟩ := unregister_view i1 c
      refine ⟨i2, fun c' h => (o2 c' h).trans (oth c' h), ?_, rfl⟩
      show view (unregister s1 c) c = (none, none)
      rw [v2, hv1]

def lstep (k : Cls S D A R H) (cfg : Option (List (Text × D))) (l : Local S H) : Event D H → Local S H × Option (Resp R)
  | .connect _ h => ((l.1, some h), none)
  | .request c cmd d => ((lreq k cfg c l cmd d).1, some (lreq k cfg c l cmd d).2)
  | .disconnect _ => (ldisconnect k l, none)

theorem step_agrees (k : Cls S D A R H) (cfg : Option (List (Text × D))) {s : Srv S H} (hi : Inv s) (e : Event D H) :
    Agrees s e.conn (step k cfg s e) (lstep k cfg (view s e.conn) e) := by
  cases e with
  | connect c h =>
    refine ⟨⟨hi.live, hi.own, hi.heap⟩, ?_, ?_, rfl⟩
    · intro c' hc
      show ((s.objs c').bind s.heap, upd s.hashes c (some h) c') = _
      rw [upd_other _ _ (show c' ≠ c from hc)]
      rfl
    · simp [step, lstep, view, upd_same, Event.conn]
  | request c cmd d =>
    have := handleRequest_agrees k cfg hi c cmd d
    exact ⟨this.inv, this.other, this.here, congrArg some this.res⟩
  | disconnect c =>
    have := handleDisconnect_agrees k hi c
    exact ⟨this.inv, this.other, this.here, rfl⟩

theorem run_inv (k : Cls S D A R H) (cfg : Option (List (Text × D))) : ∀ (es : List (Event D H)) {s : Srv S H}, Inv s → Inv (run k cfg es s).1 := by
  intro es
  induction es with
  | nil => intro s h; exact h
  | cons e es ih => intro s h; exact ih (step_agrees k cfg h e).inv

/-! ### C08 -/

def forConn (c : Conn) (rs : List (Conn × Resp R)) : List (Resp R) := (rs.filter (fun p => p.1 = c)).map Prod.snd

theorem isolated_aux (k : Cls S D A R H) (cfg : Option (List (Text × D))) (c : Conn) : ∀ (es : List (Event D H)) {s s' : Srv S H}, Inv s → Inv s' → view s c = view s' c →
    view (run k cfg es s).1 c = view (run k cfg (es.filter (fun e => e.conn = c)) s').1 c ∧
    forConn c (run k cfg es s).2 = forConn c (run k cfg (es.filter (fun e => e.conn = c)) s').2 := by
  intro es
  induction es with
  | nil => intro s s' _ _ h; exact ⟨h, rfl⟩
  | cons e es ih =>
    intro s s' hi hi' hv
    have a := step_agrees k cfg hi e
    by_cases he : e.conn = c
    · rw [List.filter_cons_of_pos (by simpa using he)]
      have a' := step_agrees k cfg hi' e
      have hs : view (step k cfg s e).1 c = view (step k cfg s' e).1 c := by
        have h1 := a.here; have h2 := a'.here
        rw [he] at h1 h2
        rw [h1, h2, hv]
      have hr : (step k cfg s e).2 = (step k cfg s' e).2 := by
        rw [a.res, a'.res, he, hv]
      obtain ⟨h1, h2⟩ := ih a.inv a'.inv hs
      refine ⟨h1, ?_⟩
      simp only [run, forConn, List.filter_append, List.map_append, hr]
      congr 1
    · rw [List.filter_cons_of_neg (by simpa using he)]
      have hs : view (step k cfg s e).1 c = view s' c := (a.other c (fun h => he h.symm)).trans hv
      obtain ⟨h1, h2⟩ := ih a.inv hi' hs
      refine ⟨h1, ?_⟩
      rw [← h2]
      simp only [run, forConn, List.filter_append, List.map_append]
      have : ((step k cfg s e).2.map (fun r => (e.conn, r))).toList.filter (fun p => decide (p.1 = c)) = [] := by
        cases (step k cfg s e).2 with
        | none => rfl
        | some r => simp [he]
      rw [this]
      rfl

/-- **C08.** Whatever the other connections do in between: the session (its state and whether it was closed), the file hashes and all responses of a connection are
the same as if the other connections did not exist. -/
theorem connections_isolated (k : Cls S D A R H) (cfg : Option (List (Text × D))) (es : List (Event D H)) (c : Conn) :
    view (run k cfg es .empty).1 c = view (run k cfg (es.filter (fun e => e.conn = c)) .empty).1 c ∧
    forConn c (run k cfg es .empty).2 = forConn c (run k cfg (es.filter (fun e => e.conn = c)) .empty).2 :=
  isolated_aux k cfg c es inv_empty inv_empty rfl

/-- **C08.** In every history two connections never have the same session object. -/
theorem sessions_not_shared (k : Cls S D A R H) (cfg : Option (List (Text × D))) (es : List (Event D H)) {c c' : Conn} {i : SId}
    (h : (run k cfg es .empty).1.objs c = some i) (h' : (run k cfg es .empty).1.objs c' = some i) : c = c' :=
  (run_inv k cfg es inv_empty).own c c' i h h'

/-! ### C07 -/

theorem runOn_calls {α : Type} (s : Srv S H) (i : SId) (f : Op S α) : (runOn s i f).1.calls = s.calls := by
  unfold runOn; split <;> rfl

theorem closeOld_calls (k : Cls S D A R H) (s : Srv S H) (c : Conn) : (closeOld k s c).1.calls = s.calls := by
  unfold closeOld closeSession
  split
  · rfl
  · split <;> rfl

theorem finishInit_calls (k : Cls S D A R H) (s : Srv S H) (i : SId) (root : Option D) : (finishInit k s i root).1.calls = s.calls := by
  unfold finishInit
  split
  · rfl
  · split
    · rename_i h'
      have h2 := congrArg (fun p => p.1.calls) h'
      simp only [runOn_calls] at h2
      exact h2.symm
    · rename_i h'
      have h2 := congrArg (fun p => p.1.calls) h'
      simp only [runOn_calls] at h2
      rw [runOn_calls]
      exact h2.symm

theorem initSession_calls (k : Cls S D A R H) (cfg : Option (List (Text × D))) (s : Srv S H) (c : Conn) (d : D) : (initSession k cfg s c d).1.calls = s.calls := by
  unfold initSession
  split
  · rfl
  · have := closeOld_calls k s c
    split
    · rename_i h; rw [h] at this; exact this
    · rename_i h
      rw [h] at this
      split
      · exact this
      · split
        · exact this
        · rw [finishInit_calls]
          exact this

theorem loadFromSession_calls (k : Cls S D A R H) (s : Srv S H) (c : Conn) (d : D) : (loadFromSession k s c d).1.calls = s.calls := by
  unfold loadFromSession
  split
  · rfl
  · split
    · rename_i h
      have h2 := congrArg (fun p => p.1.calls) h
      simp only [runOn_calls] at h2
      exact h2.symm
    · rename_i h
      have h2 := congrArg (fun p => p.1.calls) h
      simp only [runOn_calls] at h2
      rw [runOn_calls]
      exact h2.symm

theorem runCommand_calls (k : Cls S D A R H) (s : Srv S H) (c : Conn) (i : SId) (cmd : Text) (d : D) :
    (runCommand k s c i cmd d).1.calls = s.calls ∨ (runCommand k s c i cmd d).1.calls = s.calls ++ [(c, i, cmd)] := by
  unfold runCommand
  split
  · rename_i h
    have h2 := congrArg (fun p => p.1.calls) h
    simp only [runOn_calls] at h2
    exact Or.inl h2.symm
  · rename_i s1 args kwargs h
    have h1 := congrArg (fun p => p.1.calls) h
    simp only [runOn_calls] at h1
    right
    simp only
    split
    · rename_i h'
      have h2 := congrArg (fun p => p.1.calls) h'
      simp only [runOn_calls] at h2
      rw [← h2, h1]
    · rename_i h'
      have h2 := congrArg (fun p => p.1.calls) h'
      simp only [runOn_calls] at h2
      rw [runOn_calls, ← h2, h1]

/-- **C07.** A request executes at most one method of a session, and only if: it is the command of the request and does not start with an underscore, the session is the
one registered for this connection, it has a callable attribute with this name, and the generic `WrapperSession` has no such attribute. -/
theorem only_exported_methods (k : Cls S D A R H) (cfg : Option (List (Text × D))) (s : Srv S H) (c : Conn) (cmd : Text) (d : D) :
    (handleRequest k cfg s c cmd d).1.calls = s.calls ∨
    ∃ i, (handleRequest k cfg s c cmd d).1.calls = s.calls ++ [(c, i, cmd)] ∧ cmd.head? ≠ some '_' ∧ s.objs c = some i ∧
      (∃ x n, s.heap i = some (x, n) ∧ k.attr x cmd = some true) ∧ k.wrapperAttr cmd = false := by
  unfold handleRequest
  split
  · exact Or.inl rfl
  · split
    · exact Or.inl (initSession_calls k cfg s c d)
    · split
      · exact Or.inl (loadFromSession_calls k s c d)
      · split
        · rename_i i ha
          rcases runCommand_calls k s c i cmd d with h | h
          · exact Or.inl h
          · exact Or.inr ⟨i, h, (allowed_spec k s c cmd i).1 ha⟩
        · exact Or.inl rfl

/-- **C07.** Any other command, apart from `_init`, `_load` and `_handshake`, is answered by an error and changes nothing. -/
theorem other_commands_refused (k : Cls S D A R H) (cfg : Option (List (Text × D))) (s : Srv S H) (c : Conn) (cmd : Text) (d : D)
    (h1 : cmd ≠ "_init".toList) (h2 : cmd ≠ "_load".toList) (h3 : cmd ≠ "_handshake".toList)
    (h : ¬ (cmd.head? ≠ some '_' ∧ (∃ i x n, s.objs c = some i ∧ s.heap i = some (x, n) ∧ k.attr x cmd = some true) ∧ k.wrapperAttr cmd = false)) :
    handleRequest k cfg s c cmd d = (s, .invalid) := by
  unfold handleRequest
  rw [if_neg h3, if_neg h1, if_neg h2]
  cases ha : allowed k s c cmd with
  | none => rfl
  | some i =>
    obtain ⟨a1, a2, ⟨x, n, a3, a4⟩, a5⟩ := (allowed_spec k s c cmd i).1 ha
    exact absurd ⟨a1, ⟨i, x, n, a2, a3, a4⟩, a5⟩ h

/-- **C07.** Over whole histories: every method ever executed was requested by a connection, is exported and was executed on that connection's session. -/
theorem history_only_exported (k : Cls S D A R H) (cfg : Option (List (Text × D))) (es : List (Event D H)) {c : Conn} {i : SId} {cmd : Text}
    (h : (c, i, cmd) ∈ (run k cfg es .empty).1.calls) :
    cmd.head? ≠ some '_' ∧ k.wrapperAttr cmd = false ∧ (∃ d, Event.request c cmd d ∈ es) := by
  have key : ∀ (es : List (Event D H)) (s : Srv S H), (c, i, cmd) ∈ (run k cfg es s).1.calls → (c, i, cmd) ∈ s.calls ∨
      (cmd.head? ≠ some '_' ∧ k.wrapperAttr cmd = false ∧ (∃ d, Event.request c cmd d ∈ es)) := by
    intro es
    induction es with
    | nil => intro s h; exact Or.inl h
    | cons e es ih =>
      intro s h
      rcases ih _ h with h | ⟨h1, h2, d, hd⟩
      · cases e with
        | connect => exact Or.inl h
        | disconnect c' =>
          left
          have : (handleDisconnect k s c').calls = s.calls := by
            unfold handleDisconnect closeSession
            simp only
            split
            · rfl
            · split
              · rename_i h; split at h <;> (injection h with h1 _; rw [← h1]; try rfl)
              · rename_i h; split at h <;> (injection h with h1 _; rw [← h1]; try rfl)
          exact this ▸ h
        | request c' cmd' d =>
          rcases only_exported_methods k cfg s c' cmd' d with h' | ⟨j, h', a1, _, _, a2⟩
          · exact Or.inl (h' ▸ h)
          · have h : (c, i, cmd) ∈ (handleRequest k cfg s c' cmd' d).1.calls := h
            rw [h'] at h
            rcases List.mem_append.1 h with h | h
            · exact Or.inl h
            · simp only [List.mem_cons, List.not_mem_nil, or_false, Prod.mk.injEq] at h
              obtain ⟨rfl, rfl, rfl⟩ := h
              exact Or.inr ⟨a1, a2, d, List.mem_cons_self⟩
      · exact Or.inr ⟨h1, h2, d, List.mem_cons_of_mem _ hd⟩
  rcases key es .empty h with h | h
  · cases h
  · exact h

end Osp.Server
