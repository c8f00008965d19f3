import Verif.Pico.Props
import Verif.Install.Witness
/-!
# C94: an example that meets the hypotheses, and findings
-/
namespace Osp.Pico
open Osp.Install
namespace Ex
open Osp.Install.Ex

theorem pathFree : PathFree E0 := fun _ _ _ _ => rfl
theorem reloads : Reloads E0 := fun _ => rfl

/-- Example: one process after the other. -/
def after (ext : Text → Option (File Nat (List Nat))) : List Cmd → List (Text × File Nat (List Nat))
  | [] => []
  | c :: cs => (pico E0 [] (fun _ => ["cuba".toList]) none { dir := after ext cs, ext := ext, graph := [], names := [] } c).1.dir

/-- Example: decides `Fit`. -/
def fits (w : World (List Nat) Nat (List Nat)) : Cmd → Bool
  | .install _ fs => fs.all (fun f => match readDoc E0 w f with
    | .ok d => decide ('/' ∉ d.ident ∧ (d.owl = true → d.name = d.ident ∧ d.ident ≠ "graph".toList))
    | .error _ => true)
  | _ => true

theorem fits_fit {w : World (List Nat) Nat (List Nat)} {c : Cmd} (h : fits w c = true) : Fit E0 w c := by
  cases c with
  | install ov fs =>
    intro f hf d hd
    have := List.all_eq_true.1 h f hf
    rw [hd] at this
    exact of_decide_eq_true this
  | _ => trivial

theorem undotted (dir : List (Text × File Nat (List Nat))) : Undotted ({ dir := dir, ext := files, graph := [], names := [] } : World (List Nat) Nat (List Nat)) := good0.undotted

/-- Example: install two packages, one that needs the other; a refused and an impossible command; a Turtle package; a list. Latest command first. -/
def cmds : List Cmd := [.list, .install false ["/p/turtle.yml".toList], .uninstall ["nonsense".toList], .uninstall ["city".toList], .install true ["/p/city.yml".toList],
  .install false ["/p/test.yml".toList, "/p/city.yml".toList]]

/-- The history meets the hypotheses of `pico_history`. -/
theorem history : History E0 [] (fun _ => ["cuba".toList]) [] (after files cmds) :=
  .next _ none _ rfl (undotted _) (fits_fit (by decide +kernel)) <| .next _ none _ rfl (undotted _) (fits_fit (by decide +kernel)) <|
  .next _ none _ rfl (undotted _) (fits_fit (by decide +kernel)) <| .next _ none _ rfl (undotted _) (fits_fit (by decide +kernel)) <|
  .next _ none _ rfl (undotted _) (fits_fit (by decide +kernel)) <| .next _ none _ rfl (undotted _) (fits_fit (by decide +kernel)) <| .start _

example : ∃ g, Sound E0 (after files cmds) g := pico_history fair0 pathFree reloads _ history

/-- Example: the world that the next process starts in. -/
def next (ext : Text → Option (File Nat (List Nat))) (cs : List Cmd) : World (List Nat) Nat (List Nat) := restart E0 [] { dir := after ext cs, ext := ext, graph := [], names := [] }

/-- The result, computed: unlike within one process (`refused_uninstall_loses_packages`), the refused commands did no harm. -/
theorem computed : (next files cmds).installed E0 = ["city".toList, "parser_test".toList, "turtle".toList] ∧ (next files cmds).graph = [0, 1, 2, 3] := by decide +kernel

/-- Example: what a command prints. -/
def shown (cs : List Cmd) : Option (Text × Option PyErr) := match cs with
  | [] => none
  | c :: cs => match (pico E0 [] (fun _ => ["cuba".toList]) none { dir := after files cs, ext := files, graph := [], names := [] } c).2 with
    | .ok o => some (o.printed, o.logged)
    | .error _ => none

theorem list_printed : shown cmds = some ("Packages:\n\t- city\n\t- parser_test\n\t- turtle\nNamespaces:\n\t- cuba\n".toList, none) := by decide +kernel

/-- A refused command: the exception is logged, the process ends normally. Finding: the exit status does not tell. -/
theorem refused_reported : shown (cmds.drop 2) = some ([], some .valueError) ∧ shown (cmds.drop 3) = some ([], some .runtimeError) := by decide +kernel

/-- Example: a package that is called all. -/
def more : Text → Option (File Nat (List Nat)) := fun t => if t = "/p/all.yml".toList then some (.pkg (doc false "ALL" .absent "" none 9)) else files t

/-- Finding: a package called `all` cannot be uninstalled by its name: all packages are uninstalled. -/
theorem package_named_all : (next more [.install false ["/p/all.yml".toList, "/p/city.yml".toList]]).installed E0 = ["all".toList, "city".toList] ∧
    (next more [.uninstall ["all".toList], .install false ["/p/all.yml".toList, "/p/city.yml".toList]]).installed E0 = [] ∧
    (next more [.uninstall ["/p/all.yml".toList], .install false ["/p/all.yml".toList, "/p/city.yml".toList]]).installed E0 = ["city".toList] := by decide +kernel

/-- Finding: without the condition on the files, a failing command can lose packages: an RDF package with a capital letter. -/
theorem unfit_loses : (next files [.install true ["/p/capital.yml".toList], .install false ["/p/test.yml".toList, "/p/city.yml".toList]]).installed E0 = ["city".toList] ∧
    (next files [.install true ["/p/capital.yml".toList], .install false ["/p/test.yml".toList, "/p/city.yml".toList]]).graph = [0] ∧
    shown [.install true ["/p/capital.yml".toList], .install false ["/p/test.yml".toList, "/p/city.yml".toList]] = some ([], some .keyError) := by decide +kernel

end Ex
end Osp.Pico
