import Verif.Branch.Props
/-!
# Nested calls of `branch`: examples (C103)
-/
namespace Osp.Branch
open Osp.Cuds

/-- Example: a city with a neighbourhood with two streets, and a citizen: `branch(City, branch(Neighborhood, Street, Street, rel=hasPart), Citizen)`. -/
def town : Expr := .branch (.new 1 5 [(7, 10)]) (.cons (.branch (.new 2 5 []) (.cons (.new 3 5 [(7, 30)]) (.cons (.new 4 5 []) .nil)) (some 1)) (.cons (.new 5 5 []) .nil)) none

/-- Example: every namespace has `hasPart` as default. -/
def usual : Uid → Option Rel := fun _ => some 1
/-- Example: no default. -/
def noDefault : Uid → Option Rel := fun _ => none

theorem exOnto_wf : exOnto.WF := by
  constructor
  · intro r
    by_cases h1 : r = 1
    · subst h1; rfl
    · by_cases h2 : r = 2
      · subst h2; rfl
      · simp [exOnto, h1, h2]
  · intro r; simp [exOnto]

/-- The premises of `tree` are met. -/
theorem town_premises : Fits exOnto Abs.empty (old town) (fresh town) ∧ Once (old town) (fresh town) ∧ Related usual town ∧ Refines {} Abs.empty ∧ Abs.empty.Coherent exOnto.inv ∧
    (∀ u ∈ old town, ∀ x ∈ old town, ∀ r, ¬ Abs.empty.link u r x) := by
  refine ⟨⟨fun u h => (nomatch h), by decide, fun n hn => ?_⟩, by unfold Once; decide, ?_, refines_empty, coherent_empty _, fun u h => (nomatch h)⟩
  · have : ∀ n ∈ fresh town, n.1 ≠ 0 ∧ (n.2.2.map (·.1)).Nodup ∧ ∀ av ∈ n.2.2, av.1 ∈ exOnto.attrs n.2.1 := by decide
    exact ⟨(this n hn).1, rfl, (this n hn).2⟩
  · simp [town, Related, Relateds, usual]

/-- And what is built: five objects, four links and their inverses. -/
theorem town_built : links usual town = [(2, 1, 3), (2, 1, 4), (1, 1, 2), (1, 1, 5)] ∧ head town = 1 ∧
    (eval exOnto usual {} town).res.toOption = some 1 ∧ (eval exOnto usual {} town).st.reg = [1, 2, 3, 4, 5] ∧ (eval exOnto usual {} town).st.root = some 1 ∧
    (eval exOnto usual {} town).st.g.filter (fun t => match t.p with | .rel _ => true | _ => false) =
      [⟨2, .rel 1, .cuds 3⟩, ⟨3, .rel 2, .cuds 2⟩, ⟨2, .rel 1, .cuds 4⟩, ⟨4, .rel 2, .cuds 2⟩, ⟨1, .rel 1, .cuds 2⟩, ⟨2, .rel 2, .cuds 1⟩, ⟨1, .rel 1, .cuds 5⟩, ⟨5, .rel 2, .cuds 1⟩] := by
  decide +kernel

/-- Example: the session with objects 1, 2 and 3. -/
def three : Sess := (run exOnto {} [.create 1 5 [], .create 2 5 [], .create 3 5 []]).2

/-- A link asked for in both directions raises, and so does one asked for twice; what came before it stays. -/
theorem twice :
    (eval exOnto usual three (.branch (.obj 1) (.cons (.branch (.obj 2) (.cons (.obj 1) .nil) (some 2)) .nil) none)).res.toOption = none ∧
    (eval exOnto usual three (.branch (.branch (.obj 1) (.cons (.obj 2) .nil) none) (.cons (.obj 3) (.cons (.obj 2) .nil)) none)).res.toOption = none ∧
    (⟨1, .rel 1, .cuds 3⟩ : Triple) ∈ (eval exOnto usual three (.branch (.branch (.obj 1) (.cons (.obj 2) .nil) none) (.cons (.obj 3) (.cons (.obj 2) .nil)) none)).st.g := by
  decide +kernel

/-- Without a relationship the call raises a TypeError, after its arguments were built. -/
theorem missing : (match (eval exOnto noDefault three (.branch (.obj 1) (.cons (.branch (.obj 2) (.cons (.obj 3) .nil) (some 1)) .nil) none)).res with | .error .typeError => true | _ => false) = true ∧
    (⟨2, .rel 1, .cuds 3⟩ : Triple) ∈ (eval exOnto noDefault three (.branch (.obj 1) (.cons (.branch (.obj 2) (.cons (.obj 3) .nil) (some 1)) .nil) none)).st.g := by
  decide +kernel

end Osp.Branch
