import Verif.Sess.Consume
import Verif.Sess.Root
/-!
# Sessions without a root, and refreshing that fails (C12, C14, C57)
-/
namespace Osp.Sess

/-- **C14, C57.** In a session without a root object, commit, run and save raise a RuntimeError and the backend is not called; what is buffered for the user stays. -/
theorem consume_no_root (P : Params) (B : Backend) (k : Method) (s : SS) (h : s.st.root = none) :
    (s.consume P B k).1 = .error .runtimeError ∧ (s.consume P B k).2.log = s.log ∧ (s.consume P B k).2.ran = s.ran ∧ (s.consume P B k).2.st.user = s.st.user := by
  have key : ∀ t : SS, t.st.root = none → ∀ r : SRes, t.check r = (.error .runtimeError, t) := fun t ht r => by simp only [SS.check, ht, if_true]
  by_cases hc : s.st.ctx = .engine
  · cases k <;> simp [SS.consume, SS.inEngine, SS.commitBody, SS.runBody, SS.saveBody, key, h, hc]
  · cases k <;> simp [SS.consume, SS.inEngine, SS.commitBody, SS.runBody, SS.saveBody, key, h, hc]

/-- **C12.** If the backend fails while objects are refreshed, the caller gets that exception. -/
theorem refresh_error (P : Params) (s : St) (us : List Uid) (hne : us ≠ []) (e : PyErr) (h : ((s.expire us).2.load P (s.expire us).1).1 = .error e) : (s.refresh P us).1 = .error e := by
  unfold St.refresh
  rw [if_neg hne]
  show (match (s.expire us).2.load P (s.expire us).1 with
    | (.ok _, s) => ((.ok (), s) : Res Unit)
    | (.error e, s) => (.error e, s)).1 = _
  cases hl : (s.expire us).2.load P (s.expire us).1 with
  | mk r t =>
    rw [hl] at h
    cases r with
    | ok _ => cases h
    | error e' => cases h; rfl

/-- **C15.** Which exception loading or receiving an object raises: a second wrapper, or no wrapper yet, is a RuntimeError, an object without a class in a session with a wrapper a TypeError. -/
theorem received_exception (s : RSt) (u : Uid) (t : Option Bool) (r : Uid) (hr : s.root = some r) :
    (s.fromTriples u t).1 = if t = some true ∧ r ≠ u then .error .runtimeError else if t = none then .error .typeError else .ok () := by
  have hroot : ∀ s' : RSt, s'.root = some r → (match RSt.checks s' u t with
      | some e => ((.error e, s') : Except PyErr Unit × RSt)
      | none => (.ok (), s')).1 = if t = some true ∧ r ≠ u then .error .runtimeError else if t = none then .error .typeError else .ok () := by
    intro s' h'
    unfold RSt.checks
    rw [h']
    rcases t with _ | _ | _
    · simp
    · simp
    · by_cases hu : r = u <;> simp [hu]
  unfold RSt.fromTriples
  by_cases hu : u ∈ s.reg
  · simp only [if_pos hu]
    exact hroot { s with ty := Function.update (Function.update s.ty u none) u t } hr
  · simp only [if_neg hu]
    refine hroot { (s.new u none).2 with ty := Function.update (s.new u none).2.ty u t } ?_
    simp [RSt.new, RSt.put, hr]

/-- **C12.** The first load stops at the first object that cannot be loaded: the exception reaches the user, whatever comes after it. -/
theorem loadAll_error (s s' : St) (u : Uid) (us : List Uid) (e : PyErr) (h : s.loadByIri u = (.error e, s')) : s.loadAll (u :: us) = (.error e, s') := by
  unfold St.loadAll
  rw [h]

/-- **C15.** Loading and querying by class before there is a wrapper raise a RuntimeError, and nothing changes. -/
theorem no_wrapper_no_load (P : Params) (s : St) (us : List Uid) (h : s.root = none) :
    s.load P us = (.error .runtimeError, s) ∧ s.loadByOclass us = (.error .runtimeError, s) := by
  constructor
  · unfold St.load
    rw [if_pos h]
  · unfold St.loadByOclass
    rw [if_pos h]

example (P : Params) (db : Uid → Content) : (St.opened db).loadByOclass [3] = (.error .runtimeError, St.opened db) := (no_wrapper_no_load P _ _ rfl).2

end Osp.Sess
