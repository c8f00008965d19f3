import Verif.Access.Props
import Verif.Value.Witness
/-!
# The attributes of CUDS objects by name: examples (C101)
-/
namespace Osp.Access
open Osp.Onto (Name Kwargs AttrInfo)
open Osp.Value (Val Lit Fl halves)
open Osp.Yaml (Basic)

/-- Example: an attribute AGE of datatype INT. -/
def ageA : OAttr := ⟨⟨"#AGE".toList, some Basic.int.iri⟩, "AGE".toList⟩
/-- Example: an attribute with default. -/
def nameA : OAttr := ⟨⟨"#name".toList, some Basic.string.iri⟩, "name".toList⟩
/-- Example: an attribute called like a property of Cuds. -/
def uidA : OAttr := ⟨⟨"#uid".toList, some Basic.int.iri⟩, "uid".toList⟩
/-- Example: an attribute with an underscore. -/
def hidA : OAttr := ⟨⟨"#_x".toList, some Basic.int.iri⟩, "_x".toList⟩
/-- Example: an attribute whose name is another's in lower case. -/
def lowA : OAttr := ⟨⟨"#age".toList, some Basic.int.iri⟩, "age".toList⟩

/-- Example: the class of persons. -/
def person : Cls (Option Int) := ⟨[(ageA, ⟨none, true, none⟩), (nameA, ⟨some (.atom (.str "Jo".toList)), false, none⟩)], false, false⟩
/-- Example: a wrapper with an attribute without default. -/
def wrap : Cls (Option Int) := ⟨[(ageA, ⟨none, false, none⟩)], true, false⟩
/-- Example: a class with the troublesome names. -/
def odd : Cls (Option Int) := ⟨[(uidA, ⟨none, true, none⟩), (hidA, ⟨none, false, none⟩), (ageA, ⟨none, false, none⟩), (lowA, ⟨none, false, none⟩)], false, false⟩

/-- Example: a session like the core session, but with an attribute `commit` and one called AGE. -/
def sess : Session (Option Int) := ⟨fun n => n == "commit".toList || n == "AGE".toList, fun b => (.ok (), b), fun _ => .ok ()⟩

theorem sess_quiet : Quiet sess := fun _ => ⟨rfl, rfl⟩

/-- Example: what is put on an object: a number for the ontology, a text for Python. -/
def num (i : Int) : New (Option Int) String := ⟨.atom (.int i), "py"⟩

/-- Example: the object made from a body. -/
def fresh (b : Body (Option Int)) : Obj (Option Int) String := ⟨b, [], []⟩

theorem fresh_fine (b : Body (Option Int)) : Fine (fresh b) := fun _ h => nomatch h

theorem person_distinct : Distinct person := by
  unfold Distinct person
  refine List.Pairwise.cons ?_ (List.pairwise_singleton ..)
  intro x hx
  rw [List.mem_singleton] at hx
  subst hx
  refine ⟨?_, by decide⟩
  rintro n ⟨h1 | h1, h2 | h2⟩ <;> exact absurd (h1.symm.trans h2) (by decide)

/-- Example: the text of a result, to compare by computation. -/
def shown {P : Type} : Except PyErr (Res (Option Int) P) → Option (Value.Atom (Option Int))
  | .ok (.value (.atom a)) => some a
  | _ => none

/-- `Person(age=41)`: the obligatory age by its lower case name, the name by default. Then `p.age = 42`, `p._note = …`, `p.uid = 3` (refused), `del p.AGE` (refused): age is 42, the name as before. -/
theorem history_example :
    (∃ b, call halves person false false [("age".toList, .atom (.int 41))] = .ok b ∧
      let o := run halves sess (fresh b) [.set "age".toList (num 42), .set "_note".toList (num 1), .set "uid".toList (num 3), .del "AGE".toList, .get "name".toList]
      shown (get sess o "AGE".toList).1 = some (.int 42) ∧ shown (get sess o "name".toList).1 = some (.str "Jo".toList) ∧ o.plain.map (·.1) = ["_note".toList] ∧
      o.log = [.read, .update, .read, .read]) := by
  refine ⟨_, rfl, ?_⟩
  decide +kernel

/-- The hypotheses of `new_get`, `last_write` and `both_spellings` are met by it. -/
theorem person_ordinary : Ordinary "age".toList ∧ Ordinary "AGE".toList ∧ Ordinary "name".toList ∧ StandsFor person "age".toList ageA ∧ StandsFor person "AGE".toList ageA :=
  ⟨⟨by decide, by decide, by decide⟩, ⟨by decide, by decide, by decide⟩, ⟨by decide, by decide, by decide⟩,
    (both_spellings person_distinct (List.mem_cons_self ..) _).2 (.inr (by decide)), (both_spellings person_distinct (List.mem_cons_self ..) _).2 (.inl rfl)⟩

/-- Example: which kind of thing was read. -/
def kind {P : Type} : Except PyErr (Res (Option Int) P) → String
  | .ok (.member _) => "member"
  | .ok (.plain _) => "plain"
  | .ok (.value _) => "value"
  | .ok (.sess _) => "session"
  | .error _ => "error"

/-- A wrapper: its session's `commit` is reached, and so is the session's AGE as long as the wrapper's own attribute has no value; once it has one, that is read. -/
theorem wrapper_example : ∃ b, call halves wrap true false [] = .ok b ∧ kind (get sess (fresh b) "commit".toList).1 = "session" ∧ kind (get sess (fresh b) "AGE".toList).1 = "session" ∧
    kind (get sess (set halves sess (fresh b) "AGE".toList (num 7)).2 "AGE".toList).1 = "value" ∧ kind (get sess (fresh b) "nope".toList).1 = "error" ∧
    call halves wrap false false [] = .error .typeError := by
  refine ⟨_, rfl, ?_, ?_, ?_, ?_, rfl⟩ <;> decide +kernel

/-- Troublesome names: an attribute `uid` can be set, but `obj.uid` stays the property; an attribute `_x` is not set, a Python attribute is; setting `age` sets AGE, the first of the two; and a class with the obligatory
attribute `uid` cannot be instantiated without `_force`. -/
theorem odd_example : ∃ b, call halves odd false true [("uid".toList, .atom (.int 5))] = .ok b ∧ b.vals = [] ∧ call halves odd false false [("uid".toList, .atom (.int 5))] = .error .typeError ∧
    (set halves sess (fresh b) "uid".toList (num 3)).2.body.vals.map (·.1) = ["#uid".toList] ∧ kind (get sess (set halves sess (fresh b) "uid".toList (num 3)).2 "uid".toList).1 = "member" ∧
    (set halves sess (fresh b) "_x".toList (num 3)).2.body.vals.map (·.1) = [] ∧ (set halves sess (fresh b) "age".toList (num 3)).2.body.vals.map (·.1) = ["#AGE".toList] := by
  refine ⟨_, rfl, rfl, rfl, ?_, ?_, ?_, ?_⟩ <;> decide +kernel

/-- The lower case attribute cannot be reached by any name. -/
theorem low_unreachable (n : Name) : ¬ StandsFor odd n lowA :=
  shadowed (c := odd) (pre := [(uidA, ⟨none, true, none⟩), (hidA, ⟨none, false, none⟩), (ageA, ⟨none, false, none⟩)]) (post := []) (a := lowA) (b := ageA) (i := ⟨none, false, none⟩) (j := ⟨none, false, none⟩) rfl (by simp)
    (by decide) (by decide) (by
      intro x hx
      simp only [List.mem_cons, List.not_mem_nil, or_false] at hx
      rcases hx with rfl | rfl | rfl <;> exact fun h => absurd (congrArg (fun a : OAttr => a.argname) h) (by decide)) n

/-- Example: a session whose refresh takes all values away, as for an object deleted in the database. -/
def gone : Session (Option Int) := ⟨fun _ => false, fun _ => (.ok (), ⟨[], []⟩), fun _ => .ok ()⟩
/-- Example: a session whose backend fails. -/
def broken : Session (Option Int) := ⟨fun _ => false, fun b => (.error .runtimeError, b), fun _ => .ok ()⟩

/-- An object that is gone after the refresh has no attribute any more; a broken backend is an error of reading and of setting. -/
theorem refresh_example : ∃ b, call halves person false false [("age".toList, .atom (.int 41))] = .ok b ∧ kind (get gone (fresh b) "age".toList).1 = "error" ∧ kind (get sess (fresh b) "age".toList).1 = "value" ∧
    (set halves broken (fresh b) "age".toList (num 3)).1 = .error .runtimeError := by
  refine ⟨_, rfl, ?_⟩
  decide +kernel

end Osp.Access
