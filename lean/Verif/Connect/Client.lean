import Verif.Connect.Uri
/-!
# C82, C81: the life cycle of a client session
-/
namespace Osp.Connect
open Osp.Server (Cls Srv Conn Resp InitData KwVal handleRequest initSession newSession userKwargs merge closeOld newHashes finishInit alloc register upd runOn
  allowed allowed_spec loadFromSession runCommand)

variable {S D A R H : Type}

/-! ## Specification -/

/-- Specification: the first object a history stores. -/
def firstStored : List (Op D) → Option Obj
  | [] => none
  | .store o :: _ => some o
  | _ :: os => firstStored os

/-- Specification: the objects a history stores. -/
def stored (ops : List (Op D)) : List Obj := ops.filterMap (fun o => match o with | .store o => some o | _ => none)

/-- Specification: a history calls no method that transfers the pending changes. -/
def Quiet (e : Env D R) (ops : List (Op D)) : Prop := ∀ n d, Op.call n d ∈ ops → e.isLocal n = true ∨ e.consumes n = false ∨ forwarded e n = false

/-- Specification: the request that initialises the session at the server with an object. -/
def initRequest (e : Env D R) (auth : Option D) (o : Obj) : Text × D :=
  ("_init".toList, e.dump ⟨some (auth.getD e.null), some e.args, some e.kwargs, some e.hashes, some (e.root o)⟩)

/-- Specification: the requests with a given command. -/
def withCommand (cmd : Text) (log : List (Text × D)) : List (Text × D) := log.filter (fun r => r.1 = cmd)

/-- Specification: the client believes that it is initialised, but the server has no session for it. -/
def Stuck (c : Conn) (w : World S D H) : Prop := w.cli.root ≠ none ∧ w.srv.objs c = none

/-! ## Lemmas -/

theorem withCommand_append (cmd : Text) (l l' : List (Text × D)) : withCommand cmd (l ++ l') = withCommand cmd l ++ withCommand cmd l' := by
  simp [withCommand]

theorem forwarded_head {e : Env D R} {n : Text} (h : forwarded e n = true) : n.head? ≠ some '_' := by
  simp only [forwarded, Bool.and_eq_true, bne_iff_ne, ne_eq] at h
  exact h.1

theorem no_underscore {n : Text} (h : n.head? ≠ some '_') : n ≠ "_init".toList ∧ n ≠ "_handshake".toList ∧ n ≠ "_load".toList := by
  refine ⟨?_, ?_, ?_⟩ <;> (rintro rfl; exact h rfl)

/-- Proof device; nothing in /repo. What a step does to the client. -/
theorem step_root (k : Cls S D A R H) (cfg : Option (List (Text × D))) (e : Env D R) (c : Conn) (w : World S D H) (o : Op D) :
    (step k cfg e c w o).1.cli.root = w.cli.root.or (firstStored [o]) := by
  cases o with
  | store o =>
    simp only [step, store, firstStored]
    split
    · rename_i r hr; simp [hr]
    · rename_i hr
      split
      · rename_i w' x hw
        have := congrArg (fun p => p.1.cli.root) hw
        simp only [send] at this
        rw [← this, hr]; rfl
      · rename_i w' x hw
        have := congrArg (fun p => p.1.cli.root) hw
        simp only [send] at this
        simp only [← this, hr]; rfl
  | call n d =>
    simp only [step, call, firstStored, Option.or_none]
    split
    · rfl
    · split <;> rfl
  | load d => simp only [step, load, firstStored, Option.or_none]; rfl

theorem step_auth (k : Cls S D A R H) (cfg : Option (List (Text × D))) (e : Env D R) (c : Conn) (w : World S D H) (o : Op D) :
    (step k cfg e c w o).1.cli.auth = w.cli.auth := by
  cases o with
  | store o =>
    simp only [step, store]
    split
    · rfl
    · split
      · rename_i w' x hw
        have := congrArg (fun p => p.1.cli.auth) hw
        simp only [send] at this
        rw [← this]
      · rename_i w' x hw
        have := congrArg (fun p => p.1.cli.auth) hw
        simp only [send] at this
        simp only [← this]
  | call n d =>
    simp only [step, call]
    split
    · rfl
    · split <;> rfl
  | load d => rfl

/-- Specification: the requests of one step. -/
def requests (e : Env D R) (w : World S D H) : Op D → List (Text × D)
  | .store o => match w.cli.root with
    | some _ => []
    | none => [initRequest e w.cli.auth o]
  | .call n d => if e.isLocal n = false ∧ forwarded e n = true then [(n, e.request (if e.consumes n then w.cli.added else []) d)] else []
  | .load d => [("_load".toList, e.request [] d)]

theorem step_log (k : Cls S D A R H) (cfg : Option (List (Text × D))) (e : Env D R) (c : Conn) (w : World S D H) (o : Op D) :
    (step k cfg e c w o).1.cli.log = w.cli.log ++ requests e w o := by
  cases o with
  | store o =>
    simp only [step, store, requests]
    cases hr : w.cli.root with
    | some r => simp
    | none =>
      simp only
      split
      · rename_i w' x hw
        have := congrArg (fun p => p.1.cli.log) hw
        simp only [send] at this
        rw [← this]; rfl
      · rename_i w' x hw
        have := congrArg (fun p => p.1.cli.log) hw
        simp only [send] at this
        simp only [← this]; rfl
  | call n d =>
    simp only [step, call, requests]
    by_cases h : e.isLocal n = true
    · simp [h]
    · by_cases h' : forwarded e n = true
      · rw [if_neg h, if_pos h', if_pos (show e.isLocal n = false ∧ forwarded e n = true from ⟨by simpa using h, h'⟩)]; rfl
      · rw [if_neg h, if_neg h', if_neg (fun x => h' x.2)]; simp
  | load d => rfl

theorem requests_commands (e : Env D R) (w : World S D H) (o : Op D) (cmd : Text) (hc : cmd = "_init".toList ∨ cmd = "_handshake".toList)
    (h : withCommand cmd (requests e w o) ≠ []) : cmd = "_init".toList ∧ w.cli.root = none ∧ ∃ x, o = .store x := by
  cases o with
  | store o =>
    simp only [requests] at h
    cases hr : w.cli.root with
    | some r => rw [hr] at h; exact absurd rfl h
    | none =>
      rw [hr] at h
      simp only [withCommand, initRequest, List.filter_cons, List.filter_nil, decide_eq_true_eq] at h
      split at h
      · rename_i hh; exact ⟨hh.symm, rfl, _, rfl⟩
      · exact absurd rfl h
  | call n d =>
    simp only [requests] at h
    split at h
    · rename_i hf
      have := no_underscore (forwarded_head hf.2)
      simp only [withCommand, List.filter_cons, List.filter_nil, decide_eq_true_eq] at h
      split at h
      · rename_i hh
        rcases hc with rfl | rfl
        · exact absurd hh this.1
        · exact absurd hh this.2.1
      · exact absurd rfl h
    · exact absurd rfl h
  | load d =>
    exfalso
    apply h
    rcases hc with rfl | rfl <;> rfl

/-! ## Theorems -/

/-- **C82.** However a client session is used and whatever the server answers, the session at the server is initialised by at most one request: the first object stored triggers it, with
that object as root and with the authentication of the connection. No other operation ever sends one. -/
theorem initialised_once (k : Cls S D A R H) (cfg : Option (List (Text × D))) (e : Env D R) (c : Conn) : ∀ (ops : List (Op D)) (w : World S D H),
    withCommand "_init".toList (run k cfg e c ops w).1.cli.log = withCommand "_init".toList w.cli.log ++
      (match w.cli.root with
        | some _ => []
        | none => ((firstStored ops).map (initRequest e w.cli.auth)).toList) := by
  intro ops
  induction ops with
  | nil => intro w; cases w.cli.root <;> simp [run, firstStored]
  | cons o os ih =>
    intro w
    simp only [run]
    rw [ih, step_log, withCommand_append, step_root, step_auth, List.append_assoc]
    congr 1
    cases hr : w.cli.root with
    | some r =>
      have : withCommand "_init".toList (requests e w o) = [] := by
        apply Classical.byContradiction
        intro h
        have := (requests_commands e w o _ (Or.inl rfl) h).2.1
        rw [hr] at this; cases this
      rw [this]; rfl
    | none =>
      cases o with
      | store x =>
        simp only [requests, hr, firstStored, Option.none_or]
        rfl
      | call n d =>
        have : withCommand "_init".toList (requests e w (.call n d)) = [] := by
          apply Classical.byContradiction
          intro h
          obtain ⟨x, hx⟩ := (requests_commands e w _ _ (Or.inl rfl) h).2.2
          cases hx
        rw [this]; rfl
      | load d => rfl

/-- **C82.** The handshake is the first request of a connection, with the user name of the URI (empty if there is none), and there is no other handshake. -/
theorem handshake_first (k : Cls S D A R H) (cfg : Option (List (Text × D))) (e : Env D R) (c : Conn) (s : Srv S H) (user password : Option Text) (ops : List (Op D)) :
    ∃ rest, (run k cfg e c ops (connect k cfg e c s user password).1).1.cli.log = ("_handshake".toList, e.user (user.getD [])) :: rest ∧
      ∀ r ∈ rest, r.1 ≠ "_handshake".toList := by
  have key : ∀ (ops : List (Op D)) (w : World S D H), (∃ rest, w.cli.log = ("_handshake".toList, e.user (user.getD [])) :: rest ∧ ∀ r ∈ rest, r.1 ≠ "_handshake".toList) →
      ∃ rest, (run k cfg e c ops w).1.cli.log = ("_handshake".toList, e.user (user.getD [])) :: rest ∧ ∀ r ∈ rest, r.1 ≠ "_handshake".toList := by
    intro ops
    induction ops with
    | nil => intro w h; exact h
    | cons o os ih =>
      rintro w ⟨rest, h1, h2⟩
      apply ih
      refine ⟨rest ++ requests e w o, by rw [step_log, h1]; rfl, ?_⟩
      intro r hr
      rcases List.mem_append.1 hr with hr | hr
      · exact h2 r hr
      · intro hc
        have hne : withCommand "_handshake".toList (requests e w o) ≠ [] := List.ne_nil_of_mem (List.mem_filter.2 ⟨hr, decide_eq_true hc⟩)
        have := (requests_commands e w o _ (Or.inr rfl) hne).1
        exact absurd this (by decide)
  apply key
  unfold connect
  simp only [send]
  split
  · rename_i w' x hw
    have := congrArg (fun p => p.1.cli.log) hw
    exact ⟨[], by simpa using this.symm, by intro r h; cases h⟩
  · rename_i w' x hw
    have := congrArg (fun p => p.1.cli.log) hw
    split
    · exact ⟨[], by simpa using this.symm, by intro r h; cases h⟩
    · exact ⟨[], by simpa using this.symm, by intro r h; cases h⟩

theorem merge_kw {a b l : List (Text × KwVal D)} (h : merge a b = .ok l) : l = a ++ b ∧ ∀ x ∈ a, ∀ y ∈ b, x.1 ≠ y.1 := by
  unfold merge at h
  split at h
  · cases h
  · rename_i hn
    refine ⟨(Except.ok.inj h).symm, ?_⟩
    intro x hx y hy he
    exact hn (List.any_eq_true.2 ⟨x, hx, List.any_eq_true.2 ⟨y, hy, by simp [he]⟩⟩)

theorem newSession_auth (k : Cls S D A R H) (cfg : Option (List (Text × D))) {x : InitData D} {c : Conn} {z : S} (h : newSession k cfg x c = .ok z) (hw : k.wantsAuth = true) :
    ∃ args kw a, k.construct args kw = .ok z ∧ x.auth = some a ∧ ("auth".toList, KwVal.data a) ∈ kw ∧ ∀ v, ("auth".toList, v) ∈ kw → v = .data a := by
  have build : ∀ (args : List D) (kw : List (Text × D)) (l u : List (Text × KwVal D)) (a : D), (∀ v, ("auth".toList, v) ∈ l → False) → u = l ++ [("auth".toList, KwVal.data a)] →
      (match merge (kw.map (fun p => (p.1, KwVal.data p.2))) u with | .error e => (.error e : Except PyErr S) | .ok kw => k.construct args kw) = .ok z →
      ∃ kw', k.construct args kw' = .ok z ∧ ("auth".toList, KwVal.data a) ∈ kw' ∧ ∀ v, ("auth".toList, v) ∈ kw' → v = .data a := by
    intro args kw l u a hl hu h
    split at h
    · cases h
    · rename_i kw' hm
      obtain ⟨m1, m2⟩ := merge_kw hm
      refine ⟨kw', h, ?_, ?_⟩
      · rw [m1, hu]; simp
      · intro v hv
        rw [m1, hu] at hv
        rcases List.mem_append.1 hv with hv | hv
        · exact absurd rfl (m2 _ hv ("auth".toList, KwVal.data a) (by rw [hu]; simp))
        · rcases List.mem_append.1 hv with hv | hv
          · exact (hl v hv).elim
          · simp only [List.mem_cons, List.not_mem_nil, or_false, Prod.mk.injEq, true_and] at hv; exact hv
  have hl : ∀ v : KwVal D, ("auth".toList, v) ∈ (if k.wantsConn then [("connection_id".toList, KwVal.conn c)] else []) → False := by
    intro v hv
    split at hv
    · simp only [List.mem_cons, List.not_mem_nil, or_false, Prod.mk.injEq] at hv
      revert hv; intro hv; exact absurd hv.1 (by decide)
    · cases hv
  unfold newSession at h
  split at h
  · cases h
  · rename_i user hu
    unfold userKwargs at hu
    simp only [hw, if_true] at hu
    cases ha : x.auth with
    | none => rw [ha] at hu; cases hu
    | some a =>
      rw [ha] at hu
      have hu := (Except.ok.inj hu).symm
      simp only at h
      split at h
      · split at h
        · cases h
        · cases h
        · split at h
          · cases h
          · cases h
          · obtain ⟨kw, h1, h2, h3⟩ := build _ _ _ _ a hl hu h
            exact ⟨_, kw, a, h1, rfl, h2, h3⟩
      · split at h
        · obtain ⟨kw, h1, h2, h3⟩ := build _ _ _ _ a hl hu h
          exact ⟨_, kw, a, h1, rfl, h2, h3⟩
        · cases h

/-- **C81.** If the session class wants to authenticate the user, then the session that the first object of a connection opens was constructed with exactly the authentication computed
from the credentials in the URI and the answer to the handshake; a value given by the user or the configuration cannot take its place. -/
theorem auth_reaches_session (k : Cls S D A R H) (cfg : Option (List (Text × D))) (e : Env D R) (c : Conn) (s : Srv S H) (user password : Option Text) (o : Obj)
    (hparse : ∀ x, k.parse (e.dump x) = .ok x) (hno : s.objs c = none) (hw : k.wantsAuth = true)
    (hok : (connect k cfg e c s user password).2 = .ok ())
    (hst : (store k cfg e c (connect k cfg e c s user password).1 o).2 = .ok none) :
    ∃ r a args kw z i, receive e (handleRequest k cfg s c "_handshake".toList (e.user (user.getD []))).2 = .ok r ∧ e.computeAuth user password r = .ok a ∧
      k.construct args kw = .ok z ∧ ("auth".toList, KwVal.data (a.getD e.null)) ∈ kw ∧ (∀ v, ("auth".toList, v) ∈ kw → v = .data (a.getD e.null)) ∧
      (store k cfg e c (connect k cfg e c s user password).1 o).1.srv.objs c = some i := by
  unfold connect at hok hst ⊢
  simp only [send] at hok hst ⊢
  have hs : (handleRequest k cfg s c "_handshake".toList (e.user (user.getD []))).1 = s := by unfold handleRequest; rw [if_pos rfl]
  cases hr : receive e (handleRequest k cfg s c "_handshake".toList (e.user (user.getD []))).2 with
  | error x => rw [hr] at hok; cases hok
  | ok r =>
    rw [hr] at hok hst
    simp only at hok hst ⊢
    cases hc : e.computeAuth user password r with
    | error x => rw [hc] at hok; cases hok
    | ok a =>
      rw [hc] at hst
      simp only [hs] at hst
      refine ⟨r, a, ?_⟩
      unfold store at hst ⊢
      simp only [send] at hst ⊢
      have hreq : ∀ d, handleRequest k cfg s c "_init".toList d = ((initSession k cfg s c d).1, Resp.of (initSession k cfg s c d).2) := by
        intro d; unfold handleRequest; rw [if_neg (by decide), if_pos rfl]
      rw [hreq] at hst
      simp only [hs]
      rw [hreq]
      -- the server
      generalize hd : e.dump ⟨some (a.getD e.null), some e.args, some e.kwargs, some e.hashes, some (e.root o)⟩ = d at hst ⊢
      have hp : k.parse d = .ok ⟨some (a.getD e.null), some e.args, some e.kwargs, some e.hashes, some (e.root o)⟩ := by rw [← hd]; exact hparse _
      have hold : closeOld k s c = (s, .ok ()) := by unfold closeOld; rw [hno]
      cases hn : newSession k cfg ⟨some (a.getD e.null), some e.args, some e.kwargs, some e.hashes, some (e.root o)⟩ c with
      | error x =>
        have : initSession k cfg s c d = (s, .error x) := by unfold initSession; rw [hp, hold]; simp only [hn]
        rw [this] at hst
        simp [Resp.of, receive] at hst
      | ok z =>
        obtain ⟨args, kw, a', h1, h2, h3, h4⟩ := newSession_auth k cfg hn hw
        have h2 : a.getD e.null = a' := Option.some.inj h2
        rw [← h2] at h3 h4
        refine ⟨args, kw, z, s.next, trivial, hc, h1, h3, h4, ?_⟩
        cases hh : newHashes k (s.hashes c) (some e.hashes) with
        | error x =>
          have : initSession k cfg s c d = (alloc s z, .error x) := by unfold initSession; rw [hp, hold]; simp only [hn, hh]
          rw [this] at hst
          simp [Resp.of, receive] at hst
        | ok h =>
          have : initSession k cfg s c d = finishInit k (register (alloc s z) c s.next h) s.next (some (e.root o)) := by unfold initSession; rw [hp, hold]; simp only [hn, hh]
          rw [this]
          have ho : (finishInit k (register (alloc s z) c s.next h) s.next (some (e.root o))).1.objs c = some s.next := by
            have : (finishInit k (register (alloc s z) c s.next h) s.next (some (e.root o))).1.objs = (register (alloc s z) c s.next h).objs := by
              unfold finishInit
              simp only
              split
              · rename_i s' x hx
                have := congrArg (fun p => p.1.objs) hx
                rw [Osp.Server.runOn_objs] at this; exact this.symm
              · rename_i s' hx
                have := congrArg (fun p => p.1.objs) hx
                rw [Osp.Server.runOn_objs] at this
                rw [Osp.Server.runOn_objs]; exact this.symm
            rw [this]
            simp [register, upd]
          simp only
          split
          · rename_i w' x hx
            have := congrArg (fun p => p.1.srv.objs c) hx
            exact this.symm.trans ho
          · rename_i w' x hx
            have := congrArg (fun p => p.1.srv.objs c) hx
            exact this.symm.trans ho

/-- **C82.** Methods of the session class reach the session: a call that the client forwards, with a session at the server, executes exactly that method on the session of this connection,
once, provided its arguments can be read; it is never refused as an invalid command. Assumed: what the class has its instances have, and everything of the generic
session is an attribute of the client. -/
theorem forwarded_is_executed (k : Cls S D A R H) (cfg : Option (List (Text × D))) (e : Env D R) (c : Conn) (w : World S D H) {n : Text} {d : D} {i : Nat} {x : S} {m : Nat}
    (hattr : ∀ y t, e.clsAttr t = some true → k.attr y t = some true) (hwrap : ∀ t, k.wrapperAttr t = true → e.isLocal t = true)
    (hl : e.isLocal n = false) (hf : forwarded e n = true) (ho : w.srv.objs c = some i) (hx : w.srv.heap i = some (x, m))
    (hread : ∃ args, (k.readArgs (e.request (if e.consumes n then w.cli.added else []) d) x).2 = .ok args) :
    (call k cfg e c w n d).1.srv.calls = w.srv.calls ++ [(c, i, n)] ∧
    (handleRequest k cfg w.srv c n (e.request (if e.consumes n then w.cli.added else []) d)).2 ≠ .invalid := by
  have ha : allowed k w.srv c n = some i := by
    refine (allowed_spec k w.srv c n i).2 ⟨forwarded_head hf, ho, ⟨x, m, hx, hattr x n ?_⟩, ?_⟩
    · simp only [forwarded, Bool.and_eq_true, beq_iff_eq] at hf; exact hf.2
    · cases hw : k.wrapperAttr n with
      | false => rfl
      | true => rw [hwrap n hw] at hl; cases hl
  obtain ⟨u1, u2, u3⟩ := no_underscore (forwarded_head hf)
  have hreq : ∀ d, handleRequest k cfg w.srv c n d = ((runCommand k w.srv c i n d).1, Resp.of (runCommand k w.srv c i n d).2) := by
    intro d; unfold handleRequest; rw [if_neg u2, if_neg u1, if_neg u3, ha]
  obtain ⟨args, hread⟩ := hread
  refine ⟨?_, ?_⟩
  · unfold call
    rw [if_neg (by simp [hl]), if_pos hf]
    simp only [send, hreq]
    generalize e.request (if e.consumes n then w.cli.added else []) d = d at hread ⊢
    unfold runCommand
    have h1 : runOn w.srv i (k.readArgs d) = (({ w.srv with heap := upd w.srv.heap i (some ((k.readArgs d x).1, m)) } : Srv S H), .ok args) := by
      unfold runOn; simp only [hx, hread]
    rw [h1]
    simp only
    split
    · rename_i s' y hy
      have := congrArg (fun p => p.1.calls) hy
      rw [Osp.Server.runOn_calls] at this; exact this.symm
    · rename_i s' y hy
      have := congrArg (fun p => p.1.calls) hy
      rw [Osp.Server.runOn_calls] at this
      rw [Osp.Server.runOn_calls]; exact this.symm
  · rw [hreq]
    cases (runCommand k w.srv c i n (e.request (if e.consumes n then w.cli.added else []) d)).2 <;> simp [Resp.of]

/-- **C82.** Any other name that is not an attribute of the client is an AttributeError, and nothing is sent. -/
theorem other_names_not_sent (k : Cls S D A R H) (cfg : Option (List (Text × D))) (e : Env D R) (c : Conn) (w : World S D H) {n : Text} {d : D}
    (hl : e.isLocal n = false) (hn : n.head? = some '_' ∨ e.clsAttr n ≠ some true) : call k cfg e c w n d = (w, .error .attributeError) := by
  have hf : forwarded e n = false := by
    cases h : forwarded e n with
    | false => rfl
    | true =>
      exfalso
      rcases hn with hn | hn
      · exact forwarded_head h hn
      · simp only [forwarded, Bool.and_eq_true, beq_iff_eq] at h; exact hn h.2
  unfold call
  rw [if_neg (by simp [hl]), if_neg (by simp [hf])]

/-- **C82.** The server gets every stored object exactly once: after the root was accepted, the pending objects are those stored since the last call that transferred the pending changes. -/
theorem pending_since (k : Cls S D A R H) (cfg : Option (List (Text × D))) (e : Env D R) (c : Conn) : ∀ (ops : List (Op D)) (w : World S D H), w.cli.root ≠ none → Quiet e ops →
    (run k cfg e c ops w).1.cli.added = w.cli.added ++ stored ops := by
  intro ops
  induction ops with
  | nil => intro w _ _; simp [run, stored]
  | cons o os ih =>
    intro w hr hq
    simp only [run]
    rw [ih]
    · cases o with
      | store x =>
        cases hr' : w.cli.root with
        | none => exact absurd hr' hr
        | some r => simp [step, store, hr', stored]
      | call n d =>
        have := hq n d List.mem_cons_self
        simp only [step, call, stored, List.filterMap_cons]
        split
        · rfl
        · rename_i hl
          split
          · rename_i hf
            rcases this with h | h | h
            · exact absurd h hl
            · simp [send, h]
            · rw [hf] at h; cases h
          · rfl
      | load d => simp [step, load, send, stored]
    · rw [step_root]
      cases hr' : w.cli.root with
      | none => exact absurd hr' hr
      | some r => simp
    · intro n d h; exact hq n d (List.mem_cons_of_mem _ h)

/-- **C82.** A call that transfers the pending changes sends all of them and leaves none. -/
theorem transfer_sends_pending (k : Cls S D A R H) (cfg : Option (List (Text × D))) (e : Env D R) (c : Conn) (w : World S D H) {n : Text} {d : D}
    (hl : e.isLocal n = false) (hf : forwarded e n = true) (hc : e.consumes n = true) :
    (call k cfg e c w n d).1.cli.added = [] ∧ (call k cfg e c w n d).1.cli.log = w.cli.log ++ [(n, e.request w.cli.added d)] := by
  unfold call
  rw [if_neg (by simp [hl]), if_pos hf]
  simp [send, hc]

/-- **C82.** The root is accepted or reported: after the first object was stored without exception it is the root, it is not pending any more, and other pending objects are untouched. -/
theorem root_not_pending (k : Cls S D A R H) (cfg : Option (List (Text × D))) (e : Env D R) (c : Conn) (w : World S D H) {o : Obj} {r : Option D} (hr : w.cli.root = none)
    (h : (store k cfg e c w o).2 = .ok r) : (store k cfg e c w o).1.cli.root = some o ∧ (store k cfg e c w o).1.cli.added = w.cli.added.filter (· != o) := by
  unfold store at h ⊢
  rw [hr] at h ⊢
  simp only at h ⊢
  split at h
  · cases h
  · rename_i w' x hw
    have h1 := congrArg (fun p => p.1.cli.root) hw
    have h2 := congrArg (fun p => p.1.cli.added) hw
    simp only [send] at h1 h2
    refine ⟨h1.symm, ?_⟩
    simp only [← h2, List.filter_append]
    simp

/-- **C82, the limit.** If the session class raises, storing the first object raises, but the client keeps it as its root. -/
theorem failed_init_is_stuck (k : Cls S D A R H) (cfg : Option (List (Text × D))) (e : Env D R) (c : Conn) (w : World S D H) {o : Obj} {x : PyErr} (hr : w.cli.root = none)
    (hno : w.srv.objs c = none) (hparse : ∀ x, k.parse (e.dump x) = .ok x)
    (hfail : newSession k cfg ⟨some (w.cli.auth.getD e.null), some e.args, some e.kwargs, some e.hashes, some (e.root o)⟩ c = .error x) :
    (store k cfg e c w o).2 = .error .runtimeError ∧ Stuck c (store k cfg e c w o).1 := by
  have hreq : ∀ d, handleRequest k cfg w.srv c "_init".toList d = ((initSession k cfg w.srv c d).1, Resp.of (initSession k cfg w.srv c d).2) := by
    intro d; unfold handleRequest; rw [if_neg (by decide), if_pos rfl]
  have hi : initSession k cfg w.srv c (e.dump ⟨some (w.cli.auth.getD e.null), some e.args, some e.kwargs, some e.hashes, some (e.root o)⟩) = (w.srv, .error x) := by
    unfold initSession
    rw [hparse]
    have : closeOld k w.srv c = (w.srv, .ok ()) := by unfold closeOld; rw [hno]
    simp only [this, hfail]
  unfold store
  rw [hr]
  simp only [send, hreq, hi, Resp.of, receive]
  exact ⟨trivial, by simp, hno⟩

/-- **C82, the limit.** Such a client never recovers, whatever is done with it: no session is ever opened, every forwarded call and every load raises RuntimeError, no second
initialisation is sent. -/
theorem stuck_forever (k : Cls S D A R H) (cfg : Option (List (Text × D))) (e : Env D R) (c : Conn) : ∀ (ops : List (Op D)) (w : World S D H), Stuck c w →
    Stuck c (run k cfg e c ops w).1 ∧ (run k cfg e c ops w).1.srv = w.srv ∧
    withCommand "_init".toList (run k cfg e c ops w).1.cli.log = withCommand "_init".toList w.cli.log ∧
    ∀ (i : Nat) (o : Op D), ops[i]? = some o → (match o with
      | .store _ => True
      | .call n _ => e.isLocal n = true ∨ (run k cfg e c ops w).2[i]? = some (.error .runtimeError) ∨ (run k cfg e c ops w).2[i]? = some (.error .attributeError)
      | .load _ => (run k cfg e c ops w).2[i]? = some (.error .runtimeError)) := by
  have one : ∀ (o : Op D) (w : World S D H), Stuck c w → (step k cfg e c w o).1.srv = w.srv ∧ (match o with
      | .store _ => True
      | .call n _ => e.isLocal n = true ∨ (step k cfg e c w o).2 = .error .runtimeError ∨ (step k cfg e c w o).2 = .error .attributeError
      | .load _ => (step k cfg e c w o).2 = .error .runtimeError) := by
    intro o w hs
    cases o with
    | store o =>
      simp only [step, store]
      cases hr : w.cli.root with
      | none => exact absurd hr hs.1
      | some r => simp
    | call n d =>
      simp only [step, call]
      by_cases hl : e.isLocal n = true
      · simp [hl]
      · by_cases hf : forwarded e n = true
        · obtain ⟨u1, u2, u3⟩ := no_underscore (forwarded_head hf)
          have : ∀ d, handleRequest k cfg w.srv c n d = (w.srv, .invalid) := fun d => Osp.Server.other_commands_refused k cfg w.srv c n d u1 u3 u2
            (by rintro ⟨_, ⟨i, _, _, hi, _⟩, _⟩; rw [hs.2] at hi; cases hi)
          simp only [hl, hf, if_true, send, this, receive]
          exact ⟨rfl, Or.inr (Or.inl rfl)⟩
        · simp [hl, hf]
    | load d =>
      have : ∀ d, handleRequest k cfg w.srv c "_load".toList d = (w.srv, .error .keyError) := by
        intro d
        unfold handleRequest
        rw [if_neg (by decide), if_neg (by decide), if_pos rfl]
        unfold loadFromSession
        rw [hs.2]; rfl
      simp only [step, load, send, this, receive]
      exact ⟨trivial, trivial⟩
  intro ops
  induction ops with
  | nil => intro w hs; exact ⟨hs, rfl, rfl, by intro i o h; simp at h⟩
  | cons o os ih =>
    intro w hs
    have h1 := one o w hs
    have hs' : Stuck c (step k cfg e c w o).1 := by
      refine ⟨?_, by rw [h1.1]; exact hs.2⟩
      rw [step_root]
      cases hr : w.cli.root with
      | none => exact absurd hr hs.1
      | some r => simp
    obtain ⟨a1, a2, a3, a4⟩ := ih _ hs'
    have hi := initialised_once k cfg e c (o :: os) w
    refine ⟨a1, a2.trans h1.1, ?_, ?_⟩
    · rw [hi]
      cases hr : w.cli.root with
      | none => exact absurd hr hs.1
      | some r => simp
    · intro i p hp
      cases i with
      | zero =>
        simp only [List.getElem?_cons_zero, Option.some.injEq] at hp
        subst hp
        have := h1.2
        simp only [run, List.getElem?_cons_zero, Option.some.injEq]
        exact this
      | succ i =>
        simp only [List.getElem?_cons_succ] at hp
        have := a4 i p hp
        simp only [run, List.getElem?_cons_succ]
        exact this

/-! ### witnesses -/
namespace Ex

/-- The data of the example: texts, or an `_init` object. -/
inductive Dt where
  | text (t : Text)
  | obj (o : Nat)
  | init (auth root : Option Dt)

/-- A session class that accepts only the user `alice` with the password `pw`; `run` is a method. Example. -/
def cls : Cls Nat Dt Nat Nat Unit where
  handshake := fun _ _ => .ok 7
  parse := fun d => match d with
    | .init a r => .ok ⟨a, some [], some [], some (.obj 0), r⟩
    | _ => .error .valueError
  wantsConn := false
  wantsAuth := true
  construct := fun _ kw => match kw with
    | [(_, .data (.text t))] => if t = "alice/pw".toList then .ok 0 else .error .runtimeError
    | _ => .error .runtimeError
  addHashes := fun _ h => .ok h
  readRoot := fun _ s => (s, .ok ())
  close := fun s => (s, .ok ())
  attr := fun _ n => if n = "run".toList then some true else none
  wrapperAttr := fun n => n = "load".toList
  readArgs := fun _ s => (s, .ok ([], []))
  call := fun _ _ _ s => (s + 1, .ok s)
  load := fun _ s => (s, .ok s)
  answer := fun _ s => (s, .ok s)
  truthy := fun _ => true

/-- Example. -/
def env : Env Dt Nat where
  args := []
  kwargs := []
  user := .text
  computeAuth := fun u p _ => .ok (some (.text (u.getD [] ++ '/' :: p.getD [])))
  null := .obj 0
  root := .obj
  hashes := .obj 0
  dump := fun x => .init x.auth x.root
  request := fun _ d => d
  receive := fun _ => .ok none
  isLocal := fun n => n = "load".toList
  clsAttr := fun n => if n = "run".toList then some true else none
  consumes := fun n => n = "run".toList

/-- Example: the server, with the connection 3 open. -/
def srv : Srv Nat Unit := ⟨fun _ => none, fun _ => none, 0, fun c => if c = 3 then some () else none, []⟩

/-- Example: connected as alice with a password. -/
def world (pw : Text) : World Nat Dt Unit := (connect cls none env 3 srv (some "alice".toList) (some pw)).1

/-- Example: three objects, two of them before the method `run`. -/
def ops : List (Connect.Op Dt) := [.store 5, .store 6, .call "run".toList (.obj 0), .store 7, .load (.obj 0), .call "_x".toList (.obj 0)]

/-- The hypotheses of `auth_reaches_session` hold. -/
example : srv.objs 3 = none ∧ cls.wantsAuth = true ∧ (connect cls none env 3 srv (some "alice".toList) (some "pw".toList)).2 = .ok () ∧
    (match (store cls none env 3 (world "pw".toList) 5).2 with | .ok none => true | _ => false) = true := by
  refine ⟨rfl, rfl, by decide +kernel, by decide +kernel⟩

/-- With the right password: everything works, one `_init`, the object 7 is pending at the end. -/
example : ((run cls none env 3 ops (world "pw".toList)).1.cli.log.map Prod.fst = ["_handshake".toList, "_init".toList, "run".toList, "_load".toList]) ∧
    (run cls none env 3 ops (world "pw".toList)).1.cli.added = [7] ∧ (run cls none env 3 ops (world "pw".toList)).1.srv.calls = [(3, 0, "run".toList)] := by decide +kernel

/-- **C82.** With the wrong password the client is stuck, and the objects of the failed call are not pending any more: they are lost. -/
theorem wrong_password : Stuck 3 (run cls none env 3 ops (world "no".toList)).1 ∧ (run cls none env 3 ops (world "no".toList)).1.cli.added = [7] ∧
    (run cls none env 3 ops (world "no".toList)).1.srv.calls = [] := by
  refine ⟨⟨by decide +kernel, by decide +kernel⟩, by decide +kernel, by decide +kernel⟩

example : ∃ x, newSession cls none ⟨some ((world "no".toList).cli.auth.getD env.null), some env.args, some env.kwargs, some env.hashes, some (env.root 5)⟩ 3 = .error x := ⟨.runtimeError, rfl⟩
example : Quiet env [.store 7, .load (.obj 0), .call "_x".toList (.obj 0)] := by
  intro n d h
  simp only [List.mem_cons, List.not_mem_nil, or_false, reduceCtorEq, false_or, Op.call.injEq] at h
  obtain ⟨rfl, _⟩ := h
  exact Or.inr (Or.inl rfl)

end Ex
end Osp.Connect
