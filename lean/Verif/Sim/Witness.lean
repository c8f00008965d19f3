import Verif.Sim.History
import Verif.Export.Props
/-!
# Non-vacuity and findings about the dummy simulation (C84)
-/
namespace Osp.Sim
open Osp.Cuds Osp.Recycle

/-- An ontology for the examples: `hasPart` 1, `isPartOf` 2, `hasInhabitant` 3, its inverse 4; wrapper 5, person 6, city 7, citizen 8; name 10, age 11, number of steps 12. -/
def exO : Onto where
  inv r := if r = 1 then 2 else if r = 2 then 1 else if r = 3 then 4 else if r = 4 then 3 else r
  subRel r r' := r = r' || r' = 0
  subCls k k' := k = k' || (k = 8 && k' = 6)
  attrs k := if k = 5 then [12] else if k = 7 then [10] else [10, 11]
  conv _ v := some v
  active := 1
  relationship := 0

/-- Example: the terms. -/
def exT : Terms where
  person := 6
  citizen := 8
  city := 7
  hasPart := 1
  isPartOf := 2
  hasInhabitant := 3
  name := 10
  age := 11
  numSteps := 12
  text v := if v = 1 then "Anna".toList else if v = 2 then "Bert".toList else "Carl".toList
  num v := v
  ofNum k := k.toNat

theorem exO_wf : exO.WF := by
  constructor
  · intro r
    by_cases h1 : r = 1
    · subst h1; rfl
    · by_cases h2 : r = 2
      · subst h2; rfl
      · by_cases h3 : r = 3
        · subst h3; rfl
        · by_cases h4 : r = 4
          · subst h4; rfl
          · simp [exO, h1, h2, h3, h4]
  · intro r; simp [exO]

/-- The wrapper 1 (two steps in each run) with the city 2 and the persons 3 (Carl, 30), 4 (Anna, 20), 5 (Bert, 40). -/
def exS : Sess := (Cuds.run exO {} [.create 1 5 [(12, 2)], .create 2 7 [(10, 9)], .create 3 6 [(10, 3), (11, 30)], .create 4 6 [(10, 1), (11, 20)], .create 5 6 [(10, 2), (11, 40)],
  .add 1 [2, 3, 4, 5] (some 1) none]).2

theorem exS_reachable : Reachable exO exS := by
  refine Export.reachable_run _ _ .init ?_
  repeat' constructor
  all_goals decide

/-- The session before the first run. -/
def exM : Sim := { s := exS, added := [1, 2, 3, 4, 5] }

/-- After one run Anna (4) and Bert (5), first by name, have moved and all are two years older, as soon as they are loaded; Carl follows in the second run. -/
theorem ex_simulation :
    (runAll exT exO [.run, .load 1] exM).1 = [.ok (), .ok ()] ∧
    let s := (runAll exT exO [.run, .load 1] exM).2.s
    getAttr exO s 3 11 = .ok 32 ∧ getAttr exO s 4 11 = .ok 22 ∧ getAttr exO s 5 11 = .ok 42 ∧ oclass s.g 3 = some 6 ∧ oclass s.g 4 = some 8 ∧ oclass s.g 5 = some 8 ∧
    get exO s 1 [] none none = .ok [some 2, some 3] ∧ get exO s 2 [] (some 3) none = .ok [some 4, some 5] ∧
    oclass (runAll exT exO [.run, .run, .load 3] exM).2.s.g 3 = some 8 := by
  decide +kernel

/-- The hypotheses of `simulation_exact` and `person_ages_and_moves` are met. -/
theorem ex_scene : ∃ A, Refines exM.s A ∧ Scene exT exO A 1 2 exM.added 2 ∧ exM.s.root = some 1 ∧ exM.added.Nodup := by
  obtain ⟨A, h1, h2⟩ := reachable_view exO_wf exS_reachable
  have hl : ∀ a r b, A.link a r b → (⟨a, .rel r, .cuds b⟩ : Triple) ∈ exS.g := fun a r b h => (h1.link a r b).2 h
  have hl' : ∀ a r b, (⟨a, .rel r, .cuds b⟩ : Triple) ∈ exS.g → A.link a r b := fun a r b h => (h1.link a r b).1 h
  have hc : ∀ u k, (⟨u, .type, .cls k⟩ : Triple) ∈ exS.g → A.cls u = some k := fun u k h => (h1.type u k).1 h
  have hc' : ∀ u k, A.cls u = some k → (⟨u, .type, .cls k⟩ : Triple) ∈ exS.g := fun u k h => (h1.type u k).2 h
  have ha : ∀ u a v, (⟨u, .attr a, .val v⟩ : Triple) ∈ exS.g → A.attr u a = some v := fun u a v h => (h1.attr u a v).1 h
  have hlinks : ∀ t ∈ exS.g, (match t.p, t.o with
      | .rel r, .cuds y => decide ((t.s = 1 ∧ r = 1 ∧ (y = 2 ∨ y = 3 ∨ y = 4 ∨ y = 5)) ∨ (y = 1 ∧ r = 2 ∧ (t.s = 2 ∨ t.s = 3 ∨ t.s = 4 ∨ t.s = 5)))
      | _, _ => true) = true := by decide +kernel
  have htypes : ∀ t ∈ exS.g, (match t.p, t.o with
      | .type, .cls k => decide ((t.s = 1 ∧ k = 5) ∨ (t.s = 2 ∧ k = 7) ∨ ((t.s = 3 ∨ t.s = 4 ∨ t.s = 5) ∧ k = 6))
      | _, _ => true) = true := by decide +kernel
  have hL : ∀ a r b, A.link a r b → (a = 1 ∧ r = 1 ∧ (b = 2 ∨ b = 3 ∨ b = 4 ∨ b = 5)) ∨ (b = 1 ∧ r = 2 ∧ (a = 2 ∨ a = 3 ∨ a = 4 ∨ a = 5)) :=
    fun a r b h => of_decide_eq_true (hlinks _ (hl a r b h))
  have hK : ∀ u k, A.cls u = some k → (u = 1 ∧ k = 5) ∨ (u = 2 ∧ k = 7) ∨ ((u = 3 ∨ u = 4 ∨ u = 5) ∧ k = 6) :=
    fun u k h => of_decide_eq_true (htypes _ (hc' u k h))
  have hper : ∀ u, Takes exT exO A 1 u → u = 3 ∨ u = 4 ∨ u = 5 := by
    rintro u ⟨⟨k, k1, k2⟩, _⟩
    rcases hK u k k1 with ⟨_, rfl⟩ | ⟨_, rfl⟩ | ⟨h, _⟩
    · exact absurd k2 (by decide)
    · exact absurd k2 (by decide)
    · exact h
  refine ⟨A, h1, ?_, rfl, by decide⟩
  exact {
    wf := exO_wf, co := h2, names := by decide, numbers := fun _ => rfl, citizen_refl := rfl, citizen_age := by decide, inhabitant_refl := rfl, wc := by decide
    w_out := fun h => absurd (hper 1 h) (by decide)
    c_out := fun h => absurd (hper 2 h) (by decide)
    city := ⟨1, hl' _ _ _ (by decide +kernel)⟩
    city_is := ⟨7, hc _ _ (by decide +kernel), rfl⟩
    only_city := by
      rintro r x _ ⟨k, k1, k2⟩
      rcases hK x k k1 with ⟨_, rfl⟩ | ⟨h, _⟩ | ⟨_, rfl⟩
      · exact absurd k2 (by decide)
      · exact h
      · exact absurd k2 (by decide)
    steps := ⟨5, 2, hc _ _ (by decide +kernel), by decide, ha _ _ _ (by decide +kernel), rfl⟩
    steps_not_age := by decide
    data := by
      intro u _ h
      rcases hper u h with rfl | rfl | rfl
      · exact ⟨6, 3, 30, hc _ _ (by decide +kernel), by decide, by decide, ha _ _ _ (by decide +kernel), ha _ _ _ (by decide +kernel)⟩
      · exact ⟨6, 1, 20, hc _ _ (by decide +kernel), by decide, by decide, ha _ _ _ (by decide +kernel), ha _ _ _ (by decide +kernel)⟩
      · exact ⟨6, 2, 40, hc _ _ (by decide +kernel), by decide, by decide, ha _ _ _ (by decide +kernel), ha _ _ _ (by decide +kernel)⟩
    name_stored := fun _ _ _ _ _ => rfl
    only_wrapper := by
      intro u _ h r y hy
      rcases hL u r y hy with ⟨rfl, _⟩ | ⟨rfl, rfl, _⟩
      · exact absurd (hper 1 h) (by decide)
      · exact ⟨rfl, rfl⟩ }

/-! ### Findings -/

/-- The number of steps cannot be changed for a second run: every change after the first run, also of the wrapper itself, stops the simulation for good. -/
theorem ex_steps_fixed :
    let m := (runAll exT exO [.run] exM).2
    let m' := { m with s := (setAttr exO m.s 1 12 5).st, updated := [1] }
    (setAttr exO m.s 1 12 5).res = .ok () ∧ runAll exT exO [.run, .run] m' = ([.error .runtimeError, .error .runtimeError], m') := by
  decide +kernel

/-- Without a city in the wrapper, every person fails to load (IndexError) after the run, whether the person has moved or not; the new age is there already. -/
theorem ex_no_city :
    let s := (remove exO exS 1 [2] none none).st
    let m := (runAll exT exO [.run] { exM with s := s }).2
    (load exT exO 3 m).1 = .error .indexError ∧ getAttr exO (load exT exO 3 m).2.s 3 11 = .ok 32 := by
  decide +kernel

/-- A person who is also linked to another one keeps no link when moving, but is still linked from the other: the links are no longer symmetric. -/
theorem ex_friends :
    let s := (add exO exS 4 [3] (some 1) none).st
    let m := (runAll exT exO [.run, .load 4] { exM with s := s }).2
    get exO m.s 4 [] (some 1) none = .ok [] ∧ get exO m.s 3 [] (some 2) none = .ok [some 1, some 4] := by
  decide +kernel

end Osp.Sim
