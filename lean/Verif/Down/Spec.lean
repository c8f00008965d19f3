import Verif.Down.Model
/-!
# Specification of calls while the database is down

What the user is entitled to expect: a call made while the database is down either does what it always does, or raises and has no effect at all.
-/
namespace Osp.Down
open Osp.Sess Osp.Sync Osp.Remote

/-- Specification: a call that raises because the database is down has no effect, any other call has its effect (`Verif/Remote/Spec.lean`, `Query.lean`). -/
def effect (m : View) (c : Call) (res : Except PyErr (List (Option Uid))) : View :=
  match c, res with
  | .up o, _ => m.qstep o
  | .down o, .ok _ => m.qstep o
  | .down _, .error _ => m

/-- Specification. Normal use, as while the database works. While it is down every commit whose request arrives is allowed, and every query. -/
def Safe (r : Uid) (m : View) (s : RSt) : Call → Prop
  | .up o => QSafe r m s o
  | .down (.base (.commit net _)) => net ≠ .noRequest
  | .down (.query _) => True
  | .down o => QSafe r m s o

/-- Specification: every call of the history is normal use. -/
def Along (P : Params) (r : Uid) : View → RSt → List Call → Prop
  | _, _, [] => True
  | m, s, c :: cs => Safe r m s c ∧ Along P r (effect m c (step P s c).1) (step P s c).2 cs

/-- Specification: what the user expects after a history, from what the calls returned or raised. -/
def expect (P : Params) : View → RSt → List Call → View
  | m, _, [] => m
  | m, s, c :: cs => expect P (effect m c (step P s c).1) (step P s c).2 cs

/-- Specification of what a call returns or raises: while the database works what it always does, while it is down that or an exception. -/
def Answers (m : View) (c : Call) (res : Except PyErr (List (Option Uid))) : Prop :=
  match c with
  | .up o => res = m.qresult o
  | .down o => (∃ x, res = .ok x ∧ m.qresult o = .ok x) ∨ res = .error .runtimeError ∨ (res = .error .connectionClosed ∧ ∃ fail, o = .base (.commit .noResponse fail))

/-- Specification: every call of the history returns or raises what it should. -/
def AllAnswer (P : Params) : View → RSt → List Call → Prop
  | _, _, [] => True
  | m, s, c :: cs => Answers m c (step P s c).1 ∧ AllAnswer P (effect m c (step P s c).1) (step P s c).2 cs

/-- Specification: calls that need no data from the database: creating, expiring, and reading, changing, deleting or loading objects that are not expired. -/
def Offline (s : RSt) : QOp → Prop
  | .base (.create _ _) => True
  | .base (.modify u _) => u ∉ s.c.expired
  | .base (.delete u) => u ∉ s.c.expired
  | .base (.read u) => u ∉ s.c.expired
  | .base (.load u) => u ∈ s.c.reg ∧ u ∉ s.c.expired
  | .base (.expire _) => True
  | .base (.commit _ _) => False
  | .query _ => False
  | .loads us => ∀ u ∈ us, u ∈ s.c.reg ∧ u ∉ s.c.expired
  | .refresh us => us = []

end Osp.Down
