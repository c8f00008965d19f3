import Verif.Neighbor.Uses
/-!
# The dictionaries of neighbours: concrete cases (C87)

City 1 has the inhabitants 2 and 3 (relationship 5) and the mayor 2 (relationship 6); class 10 is City, 11 Citizen, 12 Person.
-/
namespace Osp.Neighbor
open Osp.Cuds

/-- The city, in the session. -/
def exG : Graph := [⟨1, .type, .cls 10⟩, ⟨1, .rel 5, .cuds 2⟩, ⟨1, .rel 5, .cuds 3⟩, ⟨1, .rel 6, .cuds 2⟩, ⟨2, .type, .cls 11⟩, ⟨3, .type, .cls 11⟩]

/-- The session has everything. -/
def exSt : St := { g := exG }

/-- The session still has to load the city. -/
def exOld : St := { g := [], pending := some (fun _ => exG) }

theorem ex_nodup : (exSt.seen true).Nodup ∧ (exOld.seen true).Nodup := by decide +kernel
theorem ex_seen : exOld.seen true = exG ∧ exOld.seen false = [] := ⟨rfl, rfl⟩
theorem ex_get : (targetGet true 1 5 (.uid 2) exOld).res = .ok [11] ∧ (targetGet true 1 5 (.uid 4) exOld).res = .error .keyError ∧
    (targetGet true 1 5 .other exOld).res = .error .valueError := by decide +kernel
theorem ex_set : (relSet true 1 (.rel 5) (.dict [(.uid 4, .classes [11]), (.uid 2, .classes [12])]) exOld).st.g =
      [⟨1, .type, .cls 10⟩, ⟨1, .rel 6, .cuds 2⟩, ⟨2, .type, .cls 11⟩, ⟨3, .type, .cls 11⟩, ⟨1, .rel 5, .cuds 4⟩, ⟨4, .type, .cls 11⟩, ⟨1, .rel 5, .cuds 2⟩,
        ⟨2, .type, .cls 12⟩] ∧
    (relSet true 1 (.rel 5) (.dict [(.uid 4, .classes [11])]) exOld).st.log = [.read 1, .read 1, .update 1, .update 1] := by decide +kernel
theorem ex_valid : ∀ e ∈ [(TKey.uid 4, TVal.classes [11]), (.uid 2, .classes [12])], Valid e := by simp [Valid]
theorem ex_items : (targetItems true 1 5 exOld).res = .ok [(2, [11]), (3, [11])] ∧ (targetItems true 1 5 exOld).st.log = [.read 1, .read 1, .read 1] := by
  decide +kernel
theorem ex_eq : (targetEq true 1 5 (.dict [(.uid 3, .classes [11]), (.uid 2, .classes [11])]) exSt).res = .ok true ∧
    (targetEq true 1 5 (.dict [(.uid 3, .classes [11])]) exSt).res = .ok false ∧
    (relEq true 1 [(.rel 6, .dict [(.uid 2, .classes [11])]), (.rel 5, .dict [(.uid 2, .classes [11]), (.uid 3, .classes [11])])] exSt).res = .ok true ∧
    (relEq true 1 [(.rel 6, .dict [(.uid 2, .classes [11])]), (.rel 7, .dict [(.uid 2, .classes [11]), (.uid 3, .classes [11])])] exSt).res = .ok false := by
  decide +kernel
theorem ex_add : (addDirect true 1 3 [11] 6 exOld).st.g = exG ++ [⟨1, .rel 6, .cuds 3⟩] ∧
    (addDirect true 1 3 [11] 7 exOld).st.g = exG ++ [⟨1, .rel 7, .cuds 3⟩] := by decide +kernel

/-- **Finding.** An assignment that is refused has already thrown the neighbours away, and the session is never told that the object changed (a
database session will not store it). -/
theorem refused_assignment_loses : (relSet true 1 (.rel 5) (.dict [(.other, .classes [11])]) exSt).res = .error .valueError ∧
    Linked exG 1 5 2 ∧ ¬ Linked (relSet true 1 (.rel 5) (.dict [(.other, .classes [11])]) exSt).st.g 1 5 2 ∧
    (relSet true 1 (.rel 5) (.dict [(.other, .classes [11])]) exSt).st.log = [.read 1] := by
  refine ⟨by decide +kernel, by unfold Linked; decide +kernel, by unfold Linked; decide +kernel, by decide +kernel⟩

/-- **Finding.** Setting the entry of a neighbour changes the neighbour: afterwards it has one more class, in its own triples; only the object whose
dictionary it is was notified. -/
theorem entry_retypes : Typed (targetSet true 1 5 (.uid 2) (.classes [12]) exSt).st.g 2 12 ∧
    oclasses (targetSet true 1 5 (.uid 2) (.classes [12]) exSt).st.g 2 = [11, 12] ∧
    (targetSet true 1 5 (.uid 2) (.classes [12]) exSt).st.log = [.read 1, .update 1] := by
  refine ⟨by unfold Typed; decide +kernel, by decide +kernel, by decide +kernel⟩

/-- **Finding.** The truth value does not ask the session: an object whose neighbours have yet to be loaded again seems to have none, although
the iteration that follows finds them. -/
theorem bool_stale : relBool 1 exOld = false ∧ (relIter true 1 exOld).res = .ok [5, 6] := by decide +kernel

/-- **Finding.** A relationship without neighbours can be read, but is no key; deleting it, or a neighbour that is none, is no error; an empty
dict assigned to it does not make it a key. -/
theorem absent_keys : (relGet true 1 (.rel 9) exSt).res = .ok 9 ∧ (relIter true 1 exSt).res = .ok [5, 6] ∧ (relDel true 1 (.rel 9) exSt).res = .ok () ∧
    (targetDel true 1 5 (.uid 9) exSt).res = .ok () ∧
    (relIter true 1 (relSet true 1 (.rel 9) (.dict []) exSt).st).res = .ok [5, 6] := by decide +kernel

/-- **Finding.** The order of the classes matters for equality. -/
theorem order_matters : (targetEq true 1 5 (.dict [(.uid 2, .classes [11, 12]), (.uid 3, .classes [11])]) (targetSet true 1 5 (.uid 2) (.classes [12]) exSt).st).res = .ok true ∧
    (targetEq true 1 5 (.dict [(.uid 2, .classes [12, 11]), (.uid 3, .classes [11])]) (targetSet true 1 5 (.uid 2) (.classes [12]) exSt).st).res = .ok false := by
  decide +kernel

end Osp.Neighbor
