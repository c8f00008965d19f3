import Verif.Killed.Props
import Verif.Install.Witness
/-! Concrete commands that are killed: `E0`, `files`, `w0` (nothing installed) and `w1` (city and parser_test installed) are those of `Verif.Install.Witness`. -/
namespace Osp.Killed
open Osp.Install Osp.Install.Ex

/-- Example: what is left of `pico install /p/turtle.yml` after `k` operations. -/
def turtle (k : Nat) : List (Text × File Nat (List Nat)) := ((planned E0 (newPackages E0) false w1 ["/p/turtle.yml".toList]).take k).foldl FOp.exec w1.dir

/-- Example: the graph of the next process. -/
def nextGraph (dir : List (Text × File Nat (List Nat))) : List Nat := (restart E0 [] { w1 with dir := dir }).graph

/-- Example: the packages that count as installed. -/
def counted (dir : List (Text × File Nat (List Nat))) : List Text := World.installed E0 { w1 with dir := dir }

/-- The command has four operations; `turtle` counts as installed after two of them, and its content is there after three. -/
theorem turtle_steps : (planned E0 (newPackages E0) false w1 ["/p/turtle.yml".toList]).length = 4 ∧
    (counted (turtle 1), nextGraph (turtle 1)) = (["city".toList, "parser_test".toList], [0, 1, 2]) ∧
    (counted (turtle 2), nextGraph (turtle 2)) = (["city".toList, "parser_test".toList, "turtle".toList], [0, 1, 2]) ∧
    (counted (turtle 3), nextGraph (turtle 3)) = (["city".toList, "parser_test".toList, "turtle".toList], [0, 1, 2, 3]) := by
  decide +kernel

/-- The conditions of `install_killed_partial` hold: in whatever way the command is killed, `city` stays installed. -/
theorem city_stays (dir' : List (Text × File Nat (List Nat))) (h : Left (planned E0 (newPackages E0) false w1 ["/p/turtle.yml".toList]) w1.dir dir') :
    docIn dir' "city".toList = some (doc false "CITY" .absent "" none 1) :=
  (install_killed_partial fair0 good1.tidy h "city".toList _ (by decide +kernel)).1

/-- Example: the file `turtle.yml` was only created when the process was killed. -/
theorem torn : Left (planned E0 (newPackages E0) false w1 ["/p/turtle.yml".toList]) w1.dir (put "turtle.yml".toList .empty (turtle 1)) :=
  ⟨1, Or.inr ⟨"turtle.yml".toList, .pkg { doc true "turtle" .absent "t.ttl" (some "ttl".toList) 0 with file := "turtle.xml".toList }, .empty, by rfl, rfl⟩⟩

theorem turtle_succeeds : (install E0 w1 ["/p/turtle.yml".toList]).2 = none := by decide +kernel

/-- The conditions of `killed_then_skipped` hold for this command: there is a moment at which it can be killed so that repeating it reports success, while the graph remains without the package. -/
theorem turtle_skipped : ∃ dir', Left (planned E0 (newPackages E0) false w1 ["/p/turtle.yml".toList]) w1.dir dir' ∧
    (∃ d', docIn dir' "turtle".toList = some d') ∧ (install E0 (restart E0 [] { w1 with dir := dir' }) ["/p/turtle.yml".toList]).2 = none ∧
    (install E0 (restart E0 [] { w1 with dir := dir' }) ["/p/turtle.yml".toList]).1.graph = [0, 1, 2] := by
  have hrd : readDoc E0 w1 "/p/turtle.yml".toList = .ok (doc true "turtle" .absent "t.ttl" (some "ttl".toList) 0) := by rfl
  have hout : ∀ e ∈ (install E0 w1 ["/p/turtle.yml".toList]).1.dir, join E0.path e.1 ≠ "/p/turtle.yml".toList := by
    have : ((install E0 w1 ["/p/turtle.yml".toList]).1.dir.map (·.1)).all (fun n => join E0.path n ≠ "/p/turtle.yml".toList) = true := by decide +kernel
    intro e he
    exact of_decide_eq_true (List.all_eq_true.1 this e.1 (List.mem_map.2 ⟨e, he, rfl⟩))
  obtain ⟨dir', h1, h2, h3⟩ := killed_then_skipped (E := E0) fair0 w1 (install E0 w1 ["/p/turtle.yml".toList]).1 good1 ["/p/turtle.yml".toList] (by simp)
    (Prod.ext rfl turtle_succeeds) (fun f hf => by
      rw [List.mem_singleton] at hf
      subst hf
      exact ⟨by decide, hout⟩) (fun f hf d hd => by
      rw [List.mem_singleton] at hf
      subst hf
      rw [hrd] at hd
      cases hd
      decide)
  refine ⟨dir', h1, h2 _ (by simp) _ hrd, (h3 []).1, (h3 []).2.trans ?_⟩
  decide +kernel

/-- **C109 fails for uninstall**: killed while `parser_test` is uninstalled, also `city` is lost, although the command not killed keeps it. -/
theorem uninstall_killed : Left (planned E0 (remaining E0) true w1 ["parser_test".toList]) w1.dir [] ∧
    counted [] = [] ∧ nextGraph [] = [0] ∧ (uninstall E0 w1 ["parser_test".toList]).1.installed E0 = ["city".toList] := by
  refine ⟨clear_killed_loses _ _ _ ?_, by decide +kernel, by decide +kernel, by decide +kernel⟩
  have : (planned E0 (remaining E0) true w1 ["parser_test".toList]).length ≠ 0 := by decide +kernel
  intro h
  exact this (by rw [h]; rfl)

/-- A refused command writes nothing: `city` cannot be uninstalled while `parser_test` needs it. -/
theorem refused_example : (planned E0 (remaining E0) true w1 ["city".toList]).length = 0 := by decide +kernel

end Osp.Killed
