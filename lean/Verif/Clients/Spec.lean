import Verif.Clients.Model
/-!
# Specification: several clients in front of one database (C99)
-/
namespace Osp.Clients
open Osp.Sess Osp.Sync Osp.Remote

/-- Specification: what a client shows for the object `u`; nothing if it does not have the object. -/
def shown (s : RSt) (u : Uid) : Option Content := if u ∈ s.c.reg then some (s.c.g u) else none

/-- Specification: where the object `u` is stored by a client with the wrapper `r`. -/
def place (r u : Uid) : Uid := if u = r then 0 else u

/-- Specification: an object that is stored without triples is not stored. -/
def asObject (x : Content) : Option Content := if x = ∅ then none else some x

/-- Specification: what a client did. Determined by the calls and their results alone. -/
structure Mem where
  /-- created, modified or deleted since the last commit -/
  changed : Uid → Prop
  /-- created since the last commit -/
  fresh : Uid → Prop
  /-- it has or had the object -/
  used : Uid → Prop

/-- Specification: after the wrapper `r` was created. Until the first commit it counts as new. -/
def Mem.connected (r : Uid) (s : RSt) : Mem := ⟨(· = r), (· = r), fun u => shown s u ≠ none⟩

/-- Specification: after a call `o` with result `res`. -/
def Mem.step (m : Mem) (o : ROp) (res : Except PyErr (List (Option Uid))) : Mem := match o with
  | .create u _ => ⟨fun v => v = u ∨ m.changed v, fun v => v = u ∨ m.fresh v, fun v => v = u ∨ m.used v⟩
  | .modify u _ => { m with changed := fun v => v = u ∨ m.changed v }
  | .delete u => { m with changed := fun v => v = u ∨ m.changed v }
  | .load u => { m with used := fun v => (v = u ∧ res ≠ .ok [none]) ∨ m.used v }
  | .commit _ none => { m with changed := fun _ => False, fresh := fun _ => False }
  | _ => m

/-- Specification: what a client may find when it reads the object `u`: what it showed, or - if it has not changed the object since the last commit - what is stored now. -/
def MayRead (r : Uid) (m : Mem) (s : RSt) (u : Uid) (y : Option Content) : Prop :=
  y = shown s u ∨ (¬ m.changed u ∧ shown s u ≠ none ∧ y = asObject (s.t.db (place r u)))

/-- Specification: what a commit makes of what is stored (`before`) for the object `u`. -/
noncomputable def written (m : Mem) (s : RSt) (u : Uid) (before : Content) : Content := open Classical in
  if m.changed u then match shown s u with
    | some y => if m.fresh u then before ∪ y else y
    | none => if m.fresh u then before else ∅
  else before

/-- Specification: the effect of a call on what the client shows and on what is stored. -/
def Effect (r : Uid) (m : Mem) (s : RSt) (o : ROp) (s' : RSt) : Prop := match o with
  | .create u x => shown s' = Function.update (shown s) u (some x) ∧ s'.t.db = s.t.db
  | .modify u f => (∃ y, MayRead r m s u (some y) ∧ shown s' = Function.update (shown s) u (some (f y))) ∧ s'.t.db = s.t.db
  | .delete u => shown s' = Function.update (shown s) u none ∧ s'.t.db = s.t.db
  | .read u => (∃ y, MayRead r m s u y ∧ shown s' = Function.update (shown s) u y) ∧ s'.t.db = s.t.db
  | .load u => (∃ y, shown s' = Function.update (shown s) u y ∧ (shown s u ≠ none → MayRead r m s u y) ∧ (shown s u = none → y = asObject (s.t.db u))) ∧ s'.t.db = s.t.db
  | .expire _ => shown s' = shown s ∧ s'.t.db = s.t.db
  | .commit _ none => shown s' = shown s ∧ s'.t.db 0 = written m s r (s.t.db 0) ∧ s'.t.db r = s.t.db r ∧ ∀ u, u ≠ 0 → u ≠ r → s'.t.db u = written m s u (s.t.db u)
  | .commit _ (some _) => shown s' = shown s ∧ s'.t.db = s.t.db

/-- Specification: what a call returns or raises; `s'` is the state afterwards. -/
def result (s' : RSt) : ROp → Except PyErr (List (Option Uid))
  | .load u => .ok [if shown s' u = none then none else some u]
  | .commit .fine none => .ok []
  | .commit .fine (some _) => .error .runtimeError
  | .commit _ _ => .error .connectionClosed
  | _ => .ok []

/-- Specification: normal use of a client with the wrapper `r`.
* new objects have a new uid and a type;
* objects the client has are modified and deleted, unless somebody else has deleted them in the meantime; an object does not lose all of its triples; the wrapper is not deleted;
* an object that the client had and that was deleted is not loaded again;
* the request of a commit reaches the server, and the backend does not fail in the very last step. -/
def Safe (r : Uid) (m : Mem) (s : RSt) : ROp → Prop
  | .create u x => u ≠ 0 ∧ ¬ m.used u ∧ x ≠ ∅
  | .modify u f => shown s u ≠ none ∧ (m.changed u ∨ s.t.db (place r u) ≠ ∅) ∧ ∀ y, MayRead r m s u (some y) → f y ≠ ∅
  | .delete u => shown s u ≠ none ∧ (m.changed u ∨ s.t.db (place r u) ≠ ∅) ∧ u ≠ r
  | .read _ => True
  | .load u => u ≠ 0 ∧ (shown s u ≠ none ∨ ¬ m.used u)
  | .expire _ => True
  | .commit net none => net ≠ .noRequest
  | .commit net (some k) => net ≠ .noRequest ∧ k < (arrived s).commitOps.length

/-- Specification: what the clients did. -/
abbrev Mems := Nat → Mem

/-- Specification: nobody did anything. -/
def Mems.start : Mems := fun _ => ⟨fun _ => False, fun _ => False, fun _ => False⟩

/-- Specification: normal use of the world. -/
def Proper (M : Mems) (w : World) (i : Nat) : COp → Prop
  | .connect r x => r ≠ 0 ∧ x ≠ ∅
  | .op o => ∃ r, (w.cl i).c.root = some r ∧ Safe r (M i) (w.at i) o

/-- Specification: what the clients did after a call of client `i`. -/
def Mems.step (P : Params) (M : Mems) (w : World) (i : Nat) : COp → Mems
  | .connect r x => Function.update M i (Mem.connected r ((Clients.step P w i (.connect r x)).2.at i))
  | .op o => Function.update M i ((M i).step o (Clients.step P w i (.op o)).1)

/-- Specification: what the clients did after a history. -/
def Mems.run (P : Params) (M : Mems) (w : World) : List (Nat × COp) → Mems
  | [] => M
  | (i, o) :: h => Mems.run P (M.step P w i o) (Clients.step P w i o).2 h

/-- Specification: every call of the history is normal use. -/
def Along (P : Params) : Mems → World → List (Nat × COp) → Prop
  | _, _, [] => True
  | M, w, (i, o) :: h => Proper M w i o ∧ Along P (M.step P w i o) (step P w i o).2 h

/-- Specification: what a call of client `i` returns and does. The other clients show what they showed. A client that connects has the wrapper with the given triples and those stored for a wrapper, and the
stored objects the stored wrapper is connected to. -/
def Outcome (P : Params) (M : Mems) (w : World) (i : Nat) (o : COp) (res : Except PyErr (List (Option Uid))) (w' : World) : Prop :=
  (∀ j, j ≠ i → shown (w'.at j) = shown (w.at j)) ∧ match o with
    | .connect r x => res = .ok [] ∧ w'.db = w.db ∧ ∀ u, shown (w'.at i) u = if u = r then some (w.db 0 ∪ x) else if u ∈ P.nb (w.db 0) ∧ u ≠ 0 then asObject (w.db u) else none
    | .op o => ∃ r, (w.cl i).c.root = some r ∧ res = result (w'.at i) o ∧ Effect r (M i) (w.at i) o (w'.at i)

/-- Specification: the call is an executed commit of client `i`, which had changed the object stored at `k`. -/
def Writes (M : Mems) (w : World) (i : Nat) (o : COp) (k : Uid) : Prop :=
  ∃ net r u, o = .op (.commit net none) ∧ (w.cl i).c.root = some r ∧ u ≠ 0 ∧ place r u = k ∧ (M i).changed u

/-- Specification: no call of the history writes at `k`. -/
def Untouched (P : Params) (k : Uid) : Mems → World → List (Nat × COp) → Prop
  | _, _, [] => True
  | M, w, (i, o) :: h => ¬ Writes M w i o k ∧ Untouched P k (M.step P w i o) (step P w i o).2 h

end Osp.Clients
