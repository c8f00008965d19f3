import Verif.Sync.Load
/-!
# Synchronisation: concrete cases and findings (C58)

Examples that meet the hypotheses of the theorems of `Props.lean` and `Load.lean`, and cases outside of them in which client and server end up with different data.
-/
namespace Osp.Sync
open Osp.Sess

/-- Triples 10, 20, 30, 40, 50 are types. -/
def P1 : Params := { diff := fun _ _ => [], nb := fun _ => [], typePart := fun c => c.filter (· % 10 = 0), order := id, order_mem := fun _ _ => Iff.rfl }

/-- A server with a wrapper and two objects, all of them stored. -/
def t0 : St := { St.opened (fun u => if u = 0 then {10} else if u = 2 then {20, 22} else if u = 3 then {30} else ∅) with
  reg := [1, 2, 3], g := fun u => if u = 1 then {10} else if u = 2 then {20} else if u = 3 then {30} else ∅, root := some 1, expired := [2] }

/-- Its client, which changed object 1, deleted object 3 and created object 4. -/
def c0 : St := { St.opened (fun _ => ∅) with
  reg := [1, 2, 4], g := fun u => if u = 1 then {10, 11} else if u = 2 then {20} else if u = 4 then {40} else ∅, det := fun u => if u = 3 then {30} else ∅,
  root := some 1, user := ⟨[4], [1], [3]⟩, expired := [2] }

theorem synced0 : Synced c0 t0 := by
  refine ⟨rfl, rfl, ⟨?_, ?_, ?_⟩, by decide, ⟨?_, ?_, ?_⟩, by decide, by decide, ?_, ?_⟩
  · intro u
    show ¬ (u ∈ [4] ∧ u ∈ [1]) ∧ ¬ (u ∈ [4] ∧ u ∈ [3]) ∧ ¬ (u ∈ [1] ∧ u ∈ [3])
    simp only [List.mem_singleton]
    refine ⟨?_, ?_, ?_⟩ <;> rintro ⟨h1, h2⟩ <;> rw [h1] at h2 <;> exact absurd h2 (by decide)
  · intro u; simp only [c0, List.mem_cons]; tauto
  · decide
  · exact disj_empty
  · intro u hu; simp [t0, St.opened, Buf.empty] at hu
  · intro u hu; simp [t0, St.opened, Buf.empty] at hu
  · intro u; simp only [c0, t0, List.mem_cons]; tauto
  · intro u hu
    simp only [c0, Buf.uids, List.cons_append, List.nil_append, List.mem_cons, not_or, List.not_mem_nil, or_false] at hu
    simp only [c0, t0, List.mem_cons, List.not_mem_nil, or_false]
    obtain ⟨h4, h1, h3⟩ := hu
    refine ⟨by tauto, ?_⟩
    rintro (h | h | h)
    · exact absurd h h1
    · subst h; rfl
    · exact absurd h h4

/-- The hypotheses of `server_receives` hold in a case with an added, an updated and a deleted object. -/
example : ∃ t', deserialize .user (serialize c0 (some .user)).1 t0 = (.ok [], t') ∧ Received c0 t0 t' ∧ Agree c0 t' :=
  match server_receives synced0 with
  | ⟨t', h1, h2, _, _⟩ => ⟨t', h1, h2, agree_received synced0 h2⟩

/-- `commit` as a command of the server. -/
def commitCmd (fail : Option Nat) (t : St) : Res (List (Option Uid)) := match t.commit fail with
  | (.ok _, t) => (.ok [], t)
  | (.error e, t) => (.error e, t)

/-- A command of the server which changes, in the engine context, object 1, deletes object 2 and creates object 7, as a simulation does. -/
def simulate (t : St) : Res (List (Option Uid)) :=
  t.inEngine (fun t => match t.modify P1 1 (insert 12) with
    | (.error e, t) => (.error e, t)
    | (.ok _, t) => match t.deleteTriples P1 2 with
      | (.error e, t) => (.error e, t)
      | (.ok _, t) => match t.create P1 7 {70} with
        | (.error e, t) => (.error e, t)
        | (.ok _, t) => (.ok [some 7, none], t))

/-- Did it succeed? -/
def Outcome.ok (o : Outcome) : Bool := match o.res with
  | .ok _ => true
  | .error _ => false

/-- The exception. -/
def Outcome.err (o : Outcome) : Option PyErr := match o.res with
  | .ok _ => none
  | .error e => some e

/-- `call_agrees` is not vacuous: a simulation run in which the server changes, deletes and creates objects (its effects, shown on the model). -/
example : let o := call .fine true simulate c0 t0
    o.ok = true ∧ o.client.reg = [1, 4, 7] ∧ o.server.reg = [1, 4, 7] ∧ o.client.g 1 = {10, 11, 12} ∧ o.server.g 1 = {10, 11, 12} ∧ o.client.g 7 = {70} ∧
      o.client.user = .empty ∧ o.server.user = ⟨[4], [1], [3]⟩ := by decide +kernel

/-- The state of the server after it processed the buffers of `c0`. -/
def t1 : St := (deserialize .user (serialize c0 (some .user)).1 t0).2

theorem t1_eq : deserialize .user (serialize c0 (some .user)).1 t0 = (.ok [], t1) := by
  obtain ⟨t', h, _⟩ := server_receives synced0
  have : t1 = t' := by unfold t1; rw [h]
  rw [this, h]

/-- The hypothesis of `failed_call_agrees` holds for a `commit` whose second backend operation fails. -/
example : ∃ c', call .fine true (fun t => (.error .exception, t)) c0 t0 = ⟨.error .runtimeError, c', t1⟩ ∧ Agree c' t1 :=
  match failed_call_agrees (cmd := fun t => (.error .exception, t)) synced0 t1_eq rfl with
  | ⟨c', h1, h2, _⟩ => ⟨c', h1, h2⟩

/-- Types are kept by `P1` for the objects of these examples. A `Params` for which every non-empty object has a type triple: -/
def P2 : Params := { P1 with typePart := id }

theorem hasType2 : HasType P2 := fun _ h => h

/-- A client without changes, with object 2 expired. -/
def c2 : St := { c0 with user := .empty, reg := [1, 2, 3], g := t0.g }

theorem synced2 : Synced c2 t0 := synced_of_agree ⟨fun _ => Iff.rfl, fun _ _ => rfl⟩ rfl rfl rfl ⟨disj_empty, by simp [t0, St.opened, Buf.empty], by simp [t0, St.opened, Buf.empty]⟩

/-- The hypotheses of `read_refreshes` hold: object 2 was changed in the database. -/
example : ∃ rs c' t', read P2 .fine (fun us t => t.load P2 us) 2 c2 t0 = ⟨.ok rs, c', t'⟩ ∧ c'.g 2 = {20, 22} :=
  match read_refreshes hasType2 (u := 2) synced2 (by decide) (by decide) (by decide) (by decide) (by decide) (by decide) (by decide) with
  | ⟨rs, c', t', h, k, _⟩ => ⟨rs, c', t', h, by rw [(k.found (by decide) (by decide)).2]; decide⟩

/-! ### Findings -/

/-- **Finding.** The buffers are reset when they are serialised, before the request is sent (tu:49-59, client:127-132). If sending fails, the user's changes are never sent again: the
retried commit succeeds and the database does not get the new object. -/
theorem lost_request_loses_changes :
    let o := call .noRequest true (commitCmd none) c0 t0
    let o' := call .fine true (commitCmd none) o.client o.server
    o.err = some .connectionClosed ∧ o.client.user = .empty ∧ o'.ok = true ∧ 4 ∈ o'.client.reg ∧ o'.server.db 4 = ∅ ∧ 4 ∉ o'.server.reg := by decide +kernel

/-- If the response is lost instead, the commit was done and nothing is lost. -/
theorem lost_response_keeps_changes :
    let o := call .noResponse true (commitCmd none) c0 t0
    o.err = some .connectionClosed ∧ o.server.db 4 = {40} ∧ o.server.db 0 = {10, 11} ∧ o.server.db 3 = ∅ := by decide +kernel

/-- **Finding.** An object that lost all of its triples before it was deleted (so also its type) is written as an empty list; the server then raises `AttributeError` and the whole
request, with all other changes in it, fails half-way: object 3 is still registered. -/
theorem deleted_without_triples_fails :
    let o := call .fine true (commitCmd none) { c0 with det := fun _ => ∅ } t0
    o.err = some .runtimeError ∧ 3 ∈ o.server.reg ∧ 4 ∈ o.server.reg ∧ o.server.db 4 = ∅ ∧ o.client.user = .empty := by decide +kernel

/-- A command that changes object 2 outside of the engine context (for example a method of the session class that is not decorated). -/
def userCmd (t : St) : Res (List (Option Uid)) := match t.modify P1 2 (insert 23) with
  | (.ok _, t) => (.ok [], t)
  | (.error e, t) => (.error e, t)

/-- **Finding.** Only the engine buffers of the server are sent back (server:137): what a command changes in the user context never reaches the client. -/
theorem user_context_change_not_sent :
    let o := call .fine true userCmd { c2 with expired := [] } { t0 with expired := [] }
    o.ok = true ∧ o.server.g 2 = {20, 23} ∧ o.client.g 2 = {20} ∧ 2 ∉ o.client.expired := by decide +kernel

/-- **Finding.** The triples of a deleted object stay in the server's graph (only its type triples were sent, tu:117-119), and an object created later with the same uid
gets them. -/
theorem recreated_object_gets_old_type :
    let o := call .fine true (commitCmd none) c0 t0
    let c := (o.client.create P1 3 {50}).2
    let o' := call .fine true (commitCmd none) c o.server
    o'.ok = true ∧ o'.client.g 3 = {50} ∧ o'.server.g 3 = {30, 50} ∧ o'.server.db 3 = {30, 50} := by decide +kernel

/-- A command like `commit` that changes object 1 in the engine context and expires everything at its end. -/
def commitLike (t : St) : Res (List (Option Uid)) :=
  t.inEngine (fun t => match t.modify P1 1 (insert 12) with
    | (.error e, t) => (.error e, t)
    | (.ok _, t) => (.ok [], ({ t with user := .empty }.expire t.reg).2))

/-- **Finding.** The expired uids are processed before the objects (tu:93-105), and receiving an object makes it current: an object which the command both changed and expired is
expired on the server but not on the client, which will not load it again. -/
theorem changed_and_expired_not_expired :
    let o := call .fine true commitLike c2 t0
    o.ok = true ∧ 1 ∈ o.server.expired ∧ 1 ∉ o.client.expired ∧ 3 ∈ o.client.expired := by decide +kernel

end Osp.Sync
