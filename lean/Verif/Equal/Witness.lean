import Verif.Equal.Props
import Verif.Export.Props
/-!
# Cases for equality and hashing (C88)
-/
namespace Osp.Equal
open Osp.Cuds

/-- Graphs: 0 and 1 have the object 5 with class 3, with different attributes; in 2 its class is 4; in 3 and 4 it has two classes, read in different orders. -/
def exWorld : World
  | 0 => [⟨5, .type, .cls 3⟩, ⟨5, .attr 1, .val 7⟩]
  | 1 => [⟨5, .type, .cls 3⟩, ⟨5, .attr 1, .val 8⟩]
  | 2 => [⟨5, .type, .cls 4⟩]
  | 3 => [⟨5, .type, .cls 3⟩, ⟨5, .type, .cls 4⟩]
  | _ => [⟨5, .type, .cls 4⟩, ⟨5, .type, .cls 3⟩]

def exHashes : Hashes := ⟨fun u => u % 8, List.length, 0⟩

/-- The same object in five graphs. -/
def ex (g : Nat) : Handle := ⟨g, g, 5⟩

/-- Equal to the copy with other attributes, not to that with another class; equal uids but not equal objects. -/
theorem ex_eq : (pyEq exWorld (.cuds (ex 0)) (.cuds (ex 1)), pyEq exWorld (.cuds (ex 0)) (.cuds (ex 2)), pyEq exWorld (.cuds (ex 0)) (.cuds ⟨9, 0, 6⟩), pyEq exWorld (.cuds ⟨8, 0, 6⟩) (.cuds ⟨9, 1, 6⟩)) =
    (.ok true, .ok false, .ok false, .ok true) := by decide +kernel

/-- **C88, finding.** Equality says nothing about the content: the copies are equal although their attributes differ. -/
theorem equal_with_other_content : pyEq exWorld (.cuds (ex 0)) (.cuds (ex 1)) = .ok true ∧ (⟨5, .attr 1, .val 7⟩ : Triple) ∈ exWorld 0 ∧ (⟨5, .attr 1, .val 7⟩ : Triple) ∉ exWorld 1 := by decide +kernel

/-- **C88, finding.** For an object of several classes equality depends on the order in which the graph yields them: the same triples, and yet not equal. -/
theorem equality_depends_on_order : (exWorld 3).Perm (exWorld 4) ∧ pyEq exWorld (.cuds (ex 3)) (.cuds (ex 4)) = .ok false := by
  refine ⟨.swap _ _ _, by decide +kernel⟩

/-- **C88, finding.** Objects of different sessions in one set: found while the classes agree, not any more after one changed its class, though the hash stays. -/
theorem lost_in_set : inSet exWorld exHashes [ex 0] (ex 1) = true ∧ inSet (Function.update exWorld 0 [⟨5, .type, .cls 4⟩]) exHashes [ex 0] (ex 1) = false := by
  constructor
  · decide +kernel
  · have h0 : Function.update exWorld 0 [⟨5, .type, .cls 4⟩] 0 = [⟨5, .type, .cls 4⟩] := Function.update_self ..
    have h1 : Function.update exWorld 0 [⟨5, .type, .cls 4⟩] 1 = exWorld 1 := Function.update_of_ne (by decide) ..
    simp only [inSet, cudsEq, Handle.oclass, ex, h0, h1, List.any_cons, List.any_nil]
    decide +kernel

/-- Uids 5 and 13 have the same hash and are kept apart. -/
theorem ex_collision : pyHash exHashes (.cuds ⟨0, 0, 5⟩) = pyHash exHashes (.cuds ⟨1, 0, 13⟩) ∧ union exWorld exHashes [⟨0, 0, 5⟩] [⟨1, 0, 13⟩, ⟨2, 0, 5⟩] = [⟨0, 0, 5⟩, ⟨1, 0, 13⟩] := by decide +kernel

/-- **C88, finding.** Entities of different namespaces, kinds and registries are equal if namespace and name together give the same IRI. -/
theorem entities_confused : let e : Entity := ⟨"h:a#".toList, "bc".toList, "bc".toList, 0, 1⟩; let f : Entity := ⟨"h:a#b".toList, "c".toList, "c".toList, 1, 2⟩
    pyEq exWorld (.entity e) (.entity f) = .ok true ∧ e ≠ f := by decide +kernel

/-- **C88, finding.** Comparing is not symmetric when one side is a namespace: one order is False, the other raises; even with an entity of the same name. -/
theorem namespace_comparison_asymmetric : let n : Ns := ⟨"city".toList, "h:a#".toList, 1⟩; let e : Entity := ⟨"h:a#".toList, "city".toList, "city".toList, 0, 1⟩
    pyEq exWorld (.cuds (ex 0)) (.ns n) = .ok false ∧ pyEq exWorld (.ns n) (.cuds (ex 0)) = .error .attributeError ∧ pyEq exWorld (.entity e) (.ns n) = .ok false ∧
    pyEq exWorld (.ns n) (.entity e) = .error .attributeError ∧ pyEq exWorld (.ns n) (.ns n) = .ok true ∧ pyEq exWorld (.ns n) (.ns { n with reg := 2 }) = .ok false := by decide +kernel

/-- A namespace with an unknown default relationship: the first question raises, the second does not. -/
theorem ex_default_rel : let f : Text → Except PyErr Nat := fun t => if t = "known".toList then .ok 1 else .error .valueError
    getDefaultRel f ["known".toList, "unknown".toList] none = (.error .valueError, some (some 1)) ∧ getDefaultRel f [] (some (some 1)) = (.ok (some 1), some (some 1)) ∧
    getDefaultRel f ["unknown".toList] none = (.error .valueError, some none) ∧ getDefaultRel f ["unknown".toList] (some none) = (.ok none, some none) := by decide +kernel

/-- The subtree of 1 in a session of three objects, as Python objects. -/
theorem ex_subtree : let s := (run exOnto {} [.create 1 5 [], .create 2 5 [], .create 3 5 [], .add 1 [2] (some 1) none]).2
    Reachable exOnto s ∧ getSubtreeH (fun _ => s.g) exHashes (fun x => (Search.children exOnto s none x.uid).map (objects 0 id)) 4 (objects 0 id 1) [] = some [⟨1, 0, 1⟩, ⟨2, 0, 2⟩] := by
  refine ⟨Export.reachable_run _ _ .init ?_, by decide +kernel⟩
  repeat' constructor
  all_goals decide

end Osp.Equal
