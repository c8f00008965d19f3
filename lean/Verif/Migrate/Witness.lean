import Verif.Migrate.Props
import Verif.Pico.Witness
/-!
# C95: an example that meets the hypotheses, and findings
-/
namespace Osp.Migrate
open Osp.Install
namespace Ex
open Osp.Install.Ex

/-- Example: an old installation of two packages, one of which requires the other. -/
def old : List (Text × File Nat (List Nat)) :=
  [("ontology.test.yml".toList, .pkg (doc false "parser_test" (.list ["city".toList]) "" none 2)), ("ontology.cuba.yml".toList, .noPkg),
   ("ontology.city.yml".toList, .pkg (doc false "CITY" .absent "" none 1))]

/-- Example: the same with a requirement on CUBA. -/
def oldCuba : List (Text × File Nat (List Nat)) := old ++ [("ontology.core.yml".toList, .pkg (doc false "core" (.list ["cuba".toList]) "" none 6))]

/-- Example: the disk. -/
def disk (l : List (Text × File Nat (List Nat))) : Disk (List Nat) Nat (List Nat) := { w := { dir := [], ext := files, graph := [], names := [] }, yml := some (some l) }

theorem has_old {d : Doc Nat} (h : Has old d) : d = doc false "parser_test" (.list ["city".toList]) "" none 2 ∨ d = doc false "CITY" .absent "" none 1 := by
  obtain ⟨n, hn, h1, h2⟩ := h
  simp only [old, List.mem_cons, List.not_mem_nil, or_false, Prod.mk.injEq, File.pkg.injEq, reduceCtorEq, and_false, false_or] at hn
  rcases hn with ⟨-, rfl⟩ | ⟨-, rfl⟩
  · exact Or.inl rfl
  · exact Or.inr rfl

theorem has_test : Has old (doc false "parser_test" (.list ["city".toList]) "" none 2) := ⟨"ontology.test.yml".toList, by simp [old], by decide, by decide⟩
theorem has_city : Has old (doc false "CITY" .absent "" none 1) := ⟨"ontology.city.yml".toList, by simp [old], by decide, by decide⟩

theorem old_old : Old old := by
  refine ⟨by decide, by decide, ?_, ?_, ?_, ?_⟩
  · intro e he
    simp only [old, List.mem_cons, List.not_mem_nil, or_false] at he
    rcases he with rfl | rfl | rfl
    · exact ⟨"ontology.test".toList, by decide⟩
    · exact ⟨"ontology.cuba".toList, by decide⟩
    · exact ⟨"ontology.city".toList, by decide⟩
  · intro e he h1 _
    simp only [old, List.mem_cons, List.not_mem_nil, or_false] at he
    rcases he with rfl | rfl | rfl
    · exact ⟨_, rfl⟩
    · exact absurd rfl h1
    · exact ⟨_, rfl⟩
  · intro d hd
    rcases has_old hd with rfl | rfl <;> decide
  · intro n n' d d' h h' hi
    obtain ⟨h, -⟩ := h
    obtain ⟨h', -⟩ := h'
    simp only [old, List.mem_cons, List.not_mem_nil, or_false, Prod.mk.injEq, File.pkg.injEq, reduceCtorEq, and_false, false_or] at h h'
    rcases h with ⟨rfl, rfl⟩ | ⟨rfl, rfl⟩ <;> rcases h' with ⟨rfl, rfl⟩ | ⟨rfl, rfl⟩
    · rfl
    · exact absurd hi (by decide)
    · exact absurd hi (by decide)
    · rfl

theorem complete_old : Complete old := by
  refine ⟨[doc false "CITY" .absent "" none 1, doc false "parser_test" (.list ["city".toList]) "" none 2], fun d => ⟨fun h => ?_, fun h => ?_⟩, ?_⟩
  · simp only [List.mem_cons, List.not_mem_nil, or_false] at h
    rcases h with rfl | rfl
    · exact has_city
    · exact has_test
  · rcases has_old h with rfl | rfl <;> simp
  · intro a d b he r hr
    obtain ⟨l, hl, hrl⟩ := hr
    match a, he with
    | [], he => cases he; cases hl
    | [x], he =>
      cases he
      cases hl
      simp only [List.mem_cons, List.not_mem_nil, or_false] at hrl
      exact Or.inr ⟨_, List.mem_cons_self, by rw [hrl]; decide⟩
    | x :: y :: a, he => simp at he

theorem parsable_old : Parsable E0 old := by
  intro docs hm _ _
  have : ∀ (docs : List (Doc Nat)) (g : List Nat), (∀ d ∈ docs, d.owl = false) → ∃ g', Pico.Builds E0 [] g docs g' := by
    intro docs
    induction docs with
    | nil => exact fun g _ => ⟨g, .nil g⟩
    | cons d l ih =>
      intro g h
      obtain ⟨g', hg'⟩ := ih (g ++ [d.body]) fun x hx => h x (List.mem_cons_of_mem _ hx)
      exact ⟨g', .yml (h d List.mem_cons_self) rfl hg'⟩
  obtain ⟨g, hg⟩ := this docs E0.cuba fun d hd => (old_old.doc d ((hm d).1 hd)).1
  exact ⟨g, [], hg⟩

/-- The example meets the hypotheses of `migration_keeps_partial` and `migrated_once`. -/
example : (migrate E0 "/tmp/x".toList (fun _ => none) (disk old)).2 = none :=
  (migration_keeps_partial fair0 Pico.Ex.pathFree "/tmp/x".toList (by decide) (fun _ => none) (fun _ => rfl) (disk old) old rfl (Pico.Ex.undotted _) old_old complete_old parsable_old).1

/-- Example: what a process sees after the migration. -/
def after (ren : Text → Option PyErr) (l : List (Text × File Nat (List Nat))) : Disk (List Nat) Nat (List Nat) × Option PyErr := start E0 [] (fun g c => g ++ c) "/tmp/x".toList ren (disk l)

/-- Example: and what the next one sees. -/
def next (ren : Text → Option PyErr) (l : List (Text × File Nat (List Nat))) : Disk (List Nat) Nat (List Nat) × Option PyErr :=
  start E0 [] (fun g c => g ++ c) "/tmp/y".toList (fun _ => none) (after ren l).1

/-- The result, computed. Finding: in the process that migrates, the saved graph is read into the graph that is already there; the next process has it once. -/
theorem computed : (after (fun _ => none) old).2 = none ∧ (after (fun _ => none) old).1.w.installed E0 = ["city".toList, "parser_test".toList] ∧
    (after (fun _ => none) old).1.w.graph = [0, 1, 2, 0, 1, 2] ∧ (next (fun _ => none) old).1.w.graph = [0, 1, 2] := by decide +kernel

/-- Finding: a package that requires CUBA makes all others disappear for ever, without an exception (`requirement_outside_lost`). -/
theorem cuba_required_lost : (after (fun _ => none) oldCuba).2 = none ∧ (after (fun _ => none) oldCuba).1.yml = none ∧ (after (fun _ => none) oldCuba).1.w.installed E0 = [] ∧
    (next (fun _ => none) oldCuba).1.w.installed E0 = [] ∧ (next (fun _ => none) oldCuba).1.w.graph = [0] := by decide +kernel

/-- Finding: when the second file cannot be moved, the first is lost; the next process installs only the rest (`rename_fails_loses`). -/
theorem second_rename_fails : (after (fun n => if n = "ontology.city.yml".toList then some .exception else none) old).2 = some .exception ∧
    (next (fun n => if n = "ontology.city.yml".toList then some .exception else none) old).1.w.installed E0 = ["city".toList] := by decide +kernel

/-- When the first file cannot be moved, nothing is lost. -/
theorem first_rename_fails : (after (fun _ => some .exception) old).2 = some .exception ∧
    (next (fun _ => some .exception) old).1.w.installed E0 = ["city".toList, "parser_test".toList] := by decide +kernel

/-- Finding: an old installation without the directory `installed` makes every import fail. -/
theorem nothing_installed : start E0 [] (fun g c => g ++ c) "/tmp/x".toList (fun _ => none) { w := w0, yml := some none } = ({ w := w0, yml := some none }, some .fileNotFoundError) := rfl

end Ex
end Osp.Migrate
