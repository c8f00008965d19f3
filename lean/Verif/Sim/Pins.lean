import Verif.Sim.Witness
/-!
# Persons without a name, and objects that cannot be loaded (C84)
-/
namespace Osp.Sim
open Osp.Cuds

/-- **C84.** An object without a name is sorted as if it were called "0". -/
theorem nameless_key (T : Terms) (O : Onto) (s : Sess) (u : Uid) (e : PyErr) (h : getAttr O s u T.name = .error e) : key T O s u = ['0'] := by
  unfold key
  rw [h]
  rfl

/-- **C84.** Loading a city with an inhabitant that is not loaded is an AttributeError, and nothing changes. -/
theorem loadCity_missing (T : Terms) (O : Onto) (w c : Uid) (m : Sim) (us : List (Option Uid)) (h : get O m.s c [] (some T.hasInhabitant) none = .ok us) (hn : none ∈ us) :
    loadCity T O w c m = (.error .attributeError, m) := by
  unfold loadCity
  rw [h]
  simp only [if_pos hn]

/-- **C84.** Loading the wrapper with a person that is not loaded is an AttributeError, and nothing changes. -/
theorem loadWrapper_missing (T : Terms) (O : Onto) (w : Uid) (m : Sim) (us : List (Option Uid)) (h : get O m.s w [] none (some T.person) = .ok us) (hn : none ∈ us) :
    loadWrapper T O w m = (.error .attributeError, m) := by
  unfold loadWrapper
  rw [h]
  simp only [if_pos hn]

/-- **C84.** Running a simulation without a wrapper object is a RuntimeError, with one that was deleted a KeyError; the simulation is untouched. -/
theorem run_refused (T : Terms) (O : Onto) (m : Sim) : (m.s.root = none → run T O m = (.error .runtimeError, m)) ∧ (∀ w, m.s.root = some w → w ∉ m.s.reg → run T O m = (.error .keyError, m)) := by
  constructor
  · intro h
    unfold run
    rw [h]
  · intro w h hw
    unfold run
    rw [h]
    simp only [if_pos hw]

/-- **C84.** Refreshing several objects stops at the first that cannot be refreshed, and the exception reaches the user. -/
theorem refreshAll_error (T : Terms) (O : Onto) (w u : Uid) (us : List Uid) (m m' : Sim) (e : PyErr) (h : refreshOne T O w u m = (.error e, m')) :
    refreshAll T O w (u :: us) m = (.error e, m') := by
  unfold refreshAll
  rw [h]

/-- **C84.** Adding several persons to the simulation stops at the first that cannot be added, and the exception reaches the user. -/
theorem applyLoop_error (T : Terms) (O : Onto) (w u : Uid) (us : List Uid) (m m' : Sim) (e : PyErr) (h : applyOne T O w u m = (.error e, m')) :
    applyLoop T O w (u :: us) m = (.error e, m') := by
  unfold applyLoop
  rw [h]

/-- **C84.** The engine knows the persons that were added, by their number; any other number is an IndexError. -/
theorem getPerson_exact (e : Engine) (idx : Nat) :
    (∀ p, e.persons[idx]? = some p → e.getPerson idx = .ok (decide ((idx : Int) < e.i), p)) ∧ (e.persons.length ≤ idx → e.getPerson idx = .error .indexError) := by
  constructor
  · intro p h
    unfold Engine.getPerson
    rw [h]
  · intro h
    unfold Engine.getPerson
    rw [List.getElem?_eq_none h]

end Osp.Sim
