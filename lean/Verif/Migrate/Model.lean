import Verif.Install.Model
/-!
# Model of the migration of old installations (C95)

`pico_migrate`, `osp/core/ontology/installation.py` (cited as ins:), `NamespaceRegistry.load`, `namespace_registry.py` (reg:), and where it is called, `osp/core/namespaces.py` (top:).

An old installation is a subdirectory `yml/installed` of the installation directory. It is a list of named files in the order of `os.listdir`. Renaming a file may fail for reasons of the
operating system (e.g. the temporary directory is on another device); this is an arbitrary function. Removing and creating directories succeeds (simplification).
-/
namespace Osp.Migrate
open Osp.Install

variable {G B R : Type}

/-- The installation directory with an old installation: `yml` is absent, without `installed`, or holds these files. `w.dir` are the other files. ins:196-205, reg:257-259. -/
structure Disk (G B R : Type) where
  w : World G B R
  yml : Option (Option (List (Text × File B R)))

/-- The files that are left behind, ins:207-208. -/
def cubaFiles : List Text := ["ontology.cuba.yml".toList, "cuba.ontology.yml".toList]

/-- The loop that moves the files to the temporary directory: what is left, what was moved, and the exception, ins:206-210. `ren`: the exception that renaming raises. -/
def moveLoop (ren : Text → Option PyErr) : List (Text × File B R) → List (Text × File B R) × List (Text × File B R) × Option PyErr
  | [] => ([], [], none)
  | e :: l =>
    if e.1 ∈ cubaFiles then
      match moveLoop ren l with
      | (a, b, x) => (e :: a, b, x)
    else match ren e.1 with
      | some x => (e :: l, [], some x)
      | none =>
        match moveLoop ren l with
        | (a, b, x) => (a, e :: b, x)

/-- The files outside the installation directory while the temporary directory exists, ins:203. -/
def overlay (tmp : Text) (moved : List (Text × File B R)) (ext : Text → Option (File B R)) : Text → Option (File B R) :=
  fun t => match moved.find? (fun e => join tmp e.1 = t) with
    | some e => some e.2
    | none => ext t

/-- The world in which the packages are installed again: an empty directory, the graph of CUBA, ins:211-215. -/
def fresh (E : Env G B R) (tmp : Text) (moved : List (Text × File B R)) (w : World G B R) : World G B R :=
  { dir := [], ext := overlay tmp moved w.ext, graph := E.cuba, names := E.cuba }

/-- `pico_migrate`, ins:196-217. At the end, and also if an exception is raised, the temporary directory is deleted with what is in it. -/
def migrate (E : Env G B R) (tmp : Text) (ren : Text → Option PyErr) (k : Disk G B R) : Disk G B R × Option PyErr :=
  match k.yml with
  | none => (k, some .fileNotFoundError)
  | some none => (k, some .fileNotFoundError)
  | some (some l) =>
    match moveLoop ren l with
    | (left, _, some x) => ({ k with yml := some (some left) }, some x)
    | (_, moved, none) =>
      match install E (fresh E tmp moved k.w) (moved.map (fun e => join tmp e.1)) with
      | (w, o) => ({ w := { w with ext := k.w.ext }, yml := none }, o)

/-- `NamespaceRegistry.load`, reg:250-275, in a new registry: an old installation is migrated first; then the saved graph is read, into the graph that is there (`again`). -/
def load (E : Env G B R) (empty : G) (again : G → R → G) (tmp : Text) (ren : Text → Option PyErr) (k : Disk G B R) : Disk G B R × Option PyErr :=
  match k.yml with
  | none => ({ k with w := restart E empty k.w }, none)
  | some _ =>
    match migrate E tmp ren k with
    | (k, some e) => (k, some e)
    | (k, none) =>
      match look k.w.dir graphXml with
      | some (.rdf _ c) => ({ k with w := { k.w with graph := again k.w.graph c, names := again k.w.graph c } }, none)
      | _ => (k, none)

/-- `import osp.core.namespaces`, top:12-26: a RuntimeError is logged, everything else is raised. -/
def start (E : Env G B R) (empty : G) (again : G → R → G) (tmp : Text) (ren : Text → Option PyErr) (k : Disk G B R) : Disk G B R × Option PyErr :=
  match load E empty again tmp ren k with
  | (k, some .runtimeError) => (k, none)
  | r => r

end Osp.Migrate
