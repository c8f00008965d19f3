import Verif.Install.Model
/-!
# Model of the command line tool pico (C94)

`osp/core/pico.py`, cited as pico:. Every command is a process of its own, which loads the installed ontologies from the directory first. Parsing the arguments is argparse's
(trusted); what is logged is not modelled, except for which exception.
-/
namespace Osp.Pico
open Osp.Install

variable {G B R : Type}

/-- What the arguments say, pico:13-50. Without a command nothing is done. -/
inductive Cmd where
  | none
  | install (overwrite : Bool) (files : List Text)
  | uninstall (packages : List Text)
  | list

/-- What the user sees: what is printed, and the exception that is logged (not raised), pico:74-78. -/
structure Outcome where
  printed : Text
  logged : Option PyErr

/-- The lines of a list, pico:71-73. -/
def bullets (l : List Text) : Text := joinWith ['\n'] (l.map (fun x => '\t' :: '-' :: ' ' :: x)) ++ ['\n']

/-- What `pico list` prints, pico:69-73. -/
def listing (packages namespaces : List Text) : Text := "Packages:\n".toList ++ bullets packages ++ "Namespaces:\n".toList ++ bullets namespaces

/-- The commands, pico:57-73; `spaces` gives the names of the namespaces of a registry, namespace_registry.py:27-36. -/
def run (E : Env G B R) (spaces : G → List Text) (w : World G B R) : Cmd → World G B R × Outcome
  | .none => (w, ⟨[], none⟩)
  | .install true fs => let r := overwrite E w fs; (r.1, ⟨[], r.2⟩)
  | .install false fs => let r := install E w fs; (r.1, ⟨[], r.2⟩)
  | .uninstall ps => let r := uninstall E w (if ps = ["all".toList] then E.enumF (w.installed E) else ps); (r.1, ⟨[], r.2⟩)
  | .list => (w, ⟨listing (E.enumF (w.installed E)) (spaces w.names), none⟩)

/-- `install_from_terminal`, pico:10-78: the level of the log is set first, which raises if there is no such level (`level`); then the installed ontologies are loaded
(namespaces.py:12-26); all exceptions after that are logged. `empty` is the graph of a new registry. -/
def pico (E : Env G B R) (empty : G) (spaces : G → List Text) (level : Option PyErr) (w : World G B R) (c : Cmd) : World G B R × Except PyErr Outcome :=
  match level with
  | some e => (w, .error e)
  | none => let r := run E spaces (restart E empty w) c; (r.1, .ok r.2)

end Osp.Pico
