import Verif.Sim.Model
import Verif.Cuds.Spec
import Verif.Show.Order
/-!
# What the dummy simulation promises (specification)

"With each simulation step, the age of all persons that are direct descendants of the Wrapper object will be increased by one. Each simulation step one person will move to the
city and become an inhabitant." (simdummy_session.py 3-6)
-/
namespace Osp.Sim
open Osp.Cuds

/-- Specification: someone who takes part: uid, name and age when the simulation started. -/
structure Part where
  uid : Uid
  name : Val
  age : Int
  deriving DecidableEq

/-- Specification: what the user has seen of the simulation: the steps done, who has moved, and the age last loaded for each. -/
structure Progress where
  steps : Int
  moved : Uid → Bool
  shown : Uid → Option Int

/-- Specification: before the first step. -/
def Progress.start : Progress := ⟨0, fun _ => false, fun _ => none⟩

/-- Specification: the user's view, from the view `A` before the simulation: those who moved are citizens, linked to the city `c` only, with their name and age; the others are as
before, except for the age if it has been loaded. -/
def expected (T : Terms) (O : Onto) (A : Abs) (c : Uid) (p : Progress) : Abs where
  cls v := if p.moved v then some T.citizen else A.cls v
  attr v a := if a = T.age then (match p.shown v with | some x => some (T.ofNum x) | none => A.attr v a)
    else if p.moved v = true ∧ a ≠ T.name then none else A.attr v a
  link a q b := (A.link a q b ∧ p.moved a = false ∧ p.moved b = false) ∨ (a = c ∧ q = T.hasInhabitant ∧ p.moved b = true) ∨
    (b = c ∧ q = O.inv T.hasInhabitant ∧ p.moved a = true)

/-- Specification: the object is of class `k` or below. -/
def Is (O : Onto) (A : Abs) (u : Uid) (k : Cls) : Prop := ∃ k', A.cls u = some k' ∧ O.subCls k' k = true

/-- Specification: the position of an object in the list of those who take part, and the age at the start. -/
def place (L : List Part) (u : Uid) : Option (Nat × Int) := match L with
  | [] => none
  | x :: L => if x.uid = u then some (0, x.age) else (place L u).map fun r => (r.1 + 1, r.2)

open Classical in
/-- Specification: after `p.steps` steps the objects in `Q` are loaded: their age is the age at the start plus the steps; the one at position `k` has moved if `k` is less than the number
of steps. Who was a citizen from the start does not move. -/
noncomputable def Progress.refresh (T : Terms) (O : Onto) (A : Abs) (L : List Part) (Q : Uid → Prop) (p : Progress) : Progress where
  steps := p.steps
  moved u := p.moved u || (match place L u with | some (k, _) => decide (Q u ∧ ¬ Is O A u T.citizen ∧ (k : Int) < p.steps) | none => false)
  shown u := match place L u with | some (_, a) => if Q u then some (a + p.steps) else p.shown u | none => p.shown u

open Classical in
/-- Specification: each operation, with `n` steps in each run. Loading the wrapper or the city loads all who have not moved yet. -/
noncomputable def Progress.step (T : Terms) (O : Onto) (A : Abs) (L : List Part) (w c : Uid) (n : Int) (p : Progress) : Op → Progress
  | .run => { p with steps := p.steps + n }
  | .load u => p.refresh T O A L (fun x => if u = w ∨ u = c then p.moved x = false else x = u)

/-- Specification: the situation in which the simulation is started: a wrapper `w` with exactly one city `c`, linked with those who take part, who have no other links. -/
structure Town (T : Terms) (O : Onto) (A : Abs) (w c : Uid) (L : List Part) (n : Int) : Prop where
  wf : O.WF
  co : A.Coherent O.inv
  names : T.name ≠ T.age
  numbers : ∀ k, O.conv T.age (T.ofNum k) = some (T.ofNum k)
  citizen_refl : O.subCls T.citizen T.citizen = true
  citizen_age : T.age ∈ O.attrs T.citizen
  inhabitant_refl : O.subRel T.hasInhabitant T.hasInhabitant = true
  wc : w ≠ c
  w_out : ∀ x ∈ L, x.uid ≠ w
  c_out : ∀ x ∈ L, x.uid ≠ c
  city : ∃ r, A.link w r c
  city_is : Is O A c T.city
  only_city : ∀ r x, A.link w r x → Is O A x T.city → x = c
  steps : ∃ k v, A.cls w = some k ∧ T.numSteps ∈ O.attrs k ∧ A.attr w T.numSteps = some v ∧ T.num v = n
  steps_not_age : T.numSteps ≠ T.age
  nodup : (L.map (·.uid)).Nodup
  person : ∀ x ∈ L, Is O A x.uid T.person
  has_age : ∀ x ∈ L, ∀ k, A.cls x.uid = some k → T.age ∈ O.attrs k
  has_name : ∀ x ∈ L, A.attr x.uid T.name = some x.name ∧ O.conv T.name x.name = some x.name
  in_wrapper : ∀ x ∈ L, ∃ r, A.link w r x.uid
  only_wrapper : ∀ x ∈ L, ∀ r y, A.link x.uid r y → y = w ∧ O.subRel (O.inv r) T.hasPart = true

/-- Specification: the object is a person and a part of the wrapper. -/
def Takes (T : Terms) (O : Onto) (A : Abs) (w u : Uid) : Prop := Is O A u T.person ∧ ∃ r, A.link u r w ∧ O.subRel r T.isPartOf = true

/-- Specification: the values that the engine needs are there. -/
def HasData (T : Terms) (O : Onto) (A : Abs) (u : Uid) : Prop :=
  ∃ k nm v, A.cls u = some k ∧ T.name ∈ O.attrs k ∧ T.age ∈ O.attrs k ∧ A.attr u T.name = some nm ∧ A.attr u T.age = some v


/-- Specification: the situation before the first run, seen by the user: a wrapper `w` with exactly one city `c`; those among the added objects who take part are linked to the wrapper only. `n` is
the number of steps. -/
structure Scene (T : Terms) (O : Onto) (A : Abs) (w c : Uid) (added : List Uid) (n : Int) : Prop where
  wf : O.WF
  co : A.Coherent O.inv
  names : T.name ≠ T.age
  numbers : ∀ k, O.conv T.age (T.ofNum k) = some (T.ofNum k)
  citizen_refl : O.subCls T.citizen T.citizen = true
  citizen_age : T.age ∈ O.attrs T.citizen
  inhabitant_refl : O.subRel T.hasInhabitant T.hasInhabitant = true
  wc : w ≠ c
  w_out : ¬ Takes T O A w w
  c_out : ¬ Takes T O A w c
  city : ∃ r, A.link w r c
  city_is : Is O A c T.city
  only_city : ∀ r x, A.link w r x → Is O A x T.city → x = c
  steps : ∃ k v, A.cls w = some k ∧ T.numSteps ∈ O.attrs k ∧ A.attr w T.numSteps = some v ∧ T.num v = n
  steps_not_age : T.numSteps ≠ T.age
  data : ∀ u ∈ added, Takes T O A w u → HasData T O A u
  name_stored : ∀ u ∈ added, Takes T O A w u → ∀ v, A.attr u T.name = some v → O.conv T.name v = some v
  only_wrapper : ∀ u ∈ added, Takes T O A w u → ∀ r y, A.link u r y → y = w ∧ O.subRel (O.inv r) T.hasPart = true

/-- Specification: the list of those who take part: the added persons that are parts of the wrapper, each once, with their names and ages, ordered by name; equal names in the order in which they
were added. -/
structure Roster (T : Terms) (O : Onto) (A : Abs) (w : Uid) (added : List Uid) (L : List Part) : Prop where
  nodup : (L.map (·.uid)).Nodup
  who : ∀ u, u ∈ L.map (·.uid) ↔ u ∈ added ∧ Takes T O A w u
  data : ∀ x ∈ L, A.attr x.uid T.name = some x.name ∧ ∃ v, A.attr x.uid T.age = some v ∧ x.age = T.num v
  sorted : L.Pairwise fun a b => Show.AtOrBefore (T.text a.name) (T.text b.name) ∧ (T.text a.name = T.text b.name → [a.uid, b.uid].Sublist added)

end Osp.Sim
