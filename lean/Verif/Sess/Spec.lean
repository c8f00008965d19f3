import Verif.Sess.Model
/-!
# Specification of a database session

A session is a map from objects to their contents (`view`), a commit copies the map to the database (`stored`).
-/
namespace Osp.Sess

/-- The logical content of an object in a session state: what a commit would store for it. -/
def St.L (s : St) (u : Uid) : Content :=
  if u ∈ s.user.added ∨ u ∈ s.user.updated then s.content u
  else if u ∈ s.user.deleted then ∅
  else s.db (s.slot u)

/-- What is stored for an object. -/
def St.stored (s : St) (u : Uid) : Content := s.db (s.slot u)

/-- The effect an operation is supposed to have on the logical contents. -/
def specView (L : Uid → Content) : Op → Uid → Content
  | .create u c => Function.update L u c
  | .modify u f => Function.update L u (f (L u))
  | .delete u => Function.update L u ∅
  | .drop u => Function.update L u ∅
  | _ => L

/-- Only a successful commit changes the database. -/
def specStored (L st : Uid → Content) : Op → Uid → Content
  | .commit none => L
  | _ => st

/-- Normal use. Each condition is needed, see the witnesses in `Props.lean`:
* new objects have a new uid;
* objects are modified through registered handles, a wrapper that counts as added keeps what is stored for it, and no object loses all its triples;
* the wrapper is not deleted;
* an object the user deleted is not loaded again before the commit, and queries by class do not find objects with pending changes;
* somebody else changes only objects without pending changes and does not delete the wrapper;
* the backend does not fail in the very last step of the commit. -/
def Safe (s : St) : Op → Prop
  | .create u c => u ≠ 0 ∧ u ∉ s.reg ∧ u ∉ s.user.uids ∧ u ∉ s.expired ∧ s.stored u = ∅ ∧ c ≠ ∅
  | .modify u f => u ∈ s.reg ∧ (u ∈ s.expired → s.stored u ≠ ∅) ∧ (s.root = some u → u ∈ s.user.added → s.stored u ⊆ f (s.g u)) ∧ ∀ c, c ≠ ∅ → f c ≠ ∅
  | .delete u => u ∈ s.reg ∧ (u ∈ s.expired → s.stored u ≠ ∅) ∧ s.root ≠ some u
  | .drop u => u ∈ s.reg ∧ s.root ≠ some u
  | .read _ => True
  | .load us => 0 ∉ us ∧ ∀ u ∈ us, u ∉ s.user.deleted
  | .loadByOclass us => 0 ∉ us ∧ ∀ u ∈ us, u ∉ s.user.uids
  | .refresh _ => True
  | .extern k c => (∀ u ∈ s.user.uids, s.slot u ≠ k) ∧ (k = 0 → c ≠ ∅)
  | .commit (some k) => k < s.commitOps.length
  | .commit none => True
  | .expire _ => True
  | .expireAll => True

/-- Nobody else changes the database. -/
def Closed : Op → Prop
  | .extern _ _ => False
  | _ => True

/-- The specification of a history: what the session shows and what is stored. -/
def specRun (L st : Uid → Content) : List Op → (Uid → Content) × (Uid → Content)
  | [] => (L, st)
  | o :: os => specRun (specView L o) (specStored L st o) os

/-- What a session on the database `db` shows after its wrapper `r` was created with content `c`: what is stored, if anything is stored for a wrapper. -/
def specOpen (db : Uid → Content) (r : Uid) (c : Content) : Uid → Content := fun u =>
  if u = r then (if db 0 = ∅ then c else db 0) else db u

/-- What is stored for the objects of such a session. -/
def specOpenStored (db : Uid → Content) (r : Uid) : Uid → Content := fun u => if u = r then db 0 else db u

end Osp.Sess
