import Verif.Camel.Model
import Mathlib.Logic.Function.Basic
/-!
# Model of writing a converted ontology, `osp/core/tools/yaml2camelcase.py` (C105; cited as y2c:)

The file system: a spelling of a path leads to a place (two spellings may lead to the same place: `a/../x.yml`, an absolute path, a link), a place has a file, a directory or nothing. A
program that writes a file first creates or empties it (`open` with mode "w") and then writes one piece after the other; it may be interrupted after each of these operations: by an
exception while the document is written, a full disc, or the end of the process.

Simplifications. No other process changes the files in the meantime. Places where a file may be created are given and do not change. Permissions are not modelled.
-/
namespace Osp.Backup

open Osp.Camel Osp.Yaml

/-- The kinds of path arguments: a text, or a `pathlib.Path` (y2c:199-204) with its text. They are equal only if they are of the same kind. Python itself; nothing in /repo. -/
inductive Arg where
  | str (t : Text)
  | path (t : Text)
  deriving DecidableEq

/-- `f"{x}"`, y2c:100. Python itself; nothing in /repo. -/
def Arg.text : Arg → Text
  | .str t => t
  | .path t => t

/-- What a place has. The operating system; nothing in /repo. -/
inductive Node where
  | absent
  | dir
  | file (t : Text)
  deriving DecidableEq

/-- A place in the file system. The operating system; nothing in /repo. -/
abbrev Place := Nat

/-- The contents of the file system. The operating system; nothing in /repo. -/
abbrev Disk := Place → Node

/-- What does not change: where paths lead, where a file may be created (its directory exists), the pieces in which texts are copied (`shutil.copyfile`) and documents written
(`yaml.safe_dump`), and how texts are read (`yaml.safe_load`). The operating system and libraries; nothing in /repo. -/
structure Env where
  leads : Text → Place
  creatable : Place → Bool
  pieces : Text → List Text
  dump : Entries → List Text
  parse : Text → Option Entries

/-- One operation on files. The operating system; nothing in /repo. -/
inductive FileOp where
  /-- create or empty -/
  | start (p : Place)
  /-- write at the end -/
  | append (p : Place) (t : Text)

/-- The effect of an operation. The operating system; nothing in /repo. -/
def FileOp.run (d : Disk) : FileOp → Disk
  | .start p => Function.update d p (.file [])
  | .append p t => match d p with
    | .file x => Function.update d p (.file (x ++ t))
    | _ => d

/-- `os.path.exists`, y2c:102. Python itself; nothing in /repo. -/
def existing (E : Env) (d : Disk) (t : Text) : Bool := d (E.leads t) ≠ .absent

/-- The operations of `open(…, "w")` and of writing the pieces, and the exception `open` raises. Python itself; nothing in /repo. -/
def writing (E : Env) (d : Disk) (p : Place) (pieces : List Text) : Except PyErr (List FileOp) := match d p with
  | .dir => .error .isADirectoryError
  | .absent => if E.creatable p then .ok (.start p :: pieces.map (.append p)) else .error .fileNotFoundError
  | .file _ => .ok (.start p :: pieces.map (.append p))

/-- The names of backups: `x.orig`, `x.orig[0]`, `x.orig[1]`, …, y2c:100-103. -/
def cand (x : Text) : Nat → Text
  | 0 => x ++ ".orig".toList
  | k + 1 => x ++ ".orig[".toList ++ dec k ++ "]".toList

/-- The loop that looks for a free name, y2c:100-104, beginning with the name number `k`; `none`: not finished after `fuel` rounds. -/
def search (E : Env) (d : Disk) (x : Text) : Nat → Nat → Option Text
  | _, 0 => none
  | k, fuel + 1 => if existing E d (cand x k) then search E d x (k + 1) fuel else some (cand x k)

/-- The operations that were executed, all or the first `n`, and whether these are all. Modelling device: interruptions. -/
def execute (ops : List FileOp) (n : Option Nat) (d : Disk) : Bool × Disk := match n with
  | none => (true, ops.foldl FileOp.run d)
  | some n => (decide (ops.length ≤ n), (ops.take n).foldl FileOp.run d)

/-- What was left of the interruption after `k` operations. Modelling device: interruptions. -/
def later (n : Option Nat) (k : Nat) : Option Nat := n.map (· - k)

/-- The end of a call. `interrupted`: after some of the operations. Modelling device. -/
inductive End where
  | done
  | raised (e : PyErr)
  | interrupted
  deriving DecidableEq

/-- `with open(output, "w") as f: yaml.safe_dump(self.doc, f)`, y2c:107-109. -/
def writeDoc (E : Env) (pieces : List Text) (out : Text) (n : Option Nat) (d : Disk) : End × Disk :=
  match writing E d (E.leads out) pieces with
  | .error e => (.raised e, d)
  | .ok ops => match execute ops n d with
    | (true, d) => (.done, d)
    | (false, d) => (.interrupted, d)

/-- `shutil.copyfile(str(output), orig_path)`, y2c:105: the source is read, the destination written; followed by the writing of the document. -/
def copyThen (E : Env) (pieces : List Text) (x orig : Text) (n : Option Nat) (d : Disk) : End × Disk := match d (E.leads x) with
  | .absent => (.raised .fileNotFoundError, d)
  | .dir => (.raised .isADirectoryError, d)
  | .file t => match writing E d (E.leads orig) (E.pieces t) with
    | .error e => (.raised e, d)
    | .ok ops => match execute ops n d with
      | (true, d) => writeDoc E pieces x (later n ops.length) d
      | (false, d) => (.interrupted, d)

/-- `not output`, y2c:96: `None` and the empty text; a `Path` is never false. -/
def omitted : Option Arg → Bool
  | none => true
  | some (.str []) => true
  | some _ => false

/-- `store(output)` of a converter for the file `x`, y2c:94-109; `pieces` are what `yaml.safe_dump` writes, `n` is the number of operations on files before an interruption. `none`: the loop has not
ended after `fuel` rounds. -/
def store (E : Env) (fuel : Nat) (x : Arg) (pieces : List Text) (output : Option Arg) (n : Option Nat) (d : Disk) : Option (End × Disk) :=
  let out := if omitted output then x else output.getD x
  if out = x then
    match search E d out.text 0 fuel with
    | none => none
    | some orig => some (copyThen E pieces out.text orig n d)
  else some (writeDoc E pieces out.text n d)

/-- The tool, `run_from_terminal`, y2c:192-206: read (`get_doc`, yml_parser.py:88-96; YAML errors as ValueError), convert (y2c:37-58), store. An exception of the conversion is a ValueError,
whatever it is. -/
def tool (E : Env) (fuel : Nat) (answers : Nat → Bool) (limit : Nat) (x : Text) (output : Option Text) (n : Option Nat) (d : Disk) : Option (End × Disk) := match d (E.leads x) with
  | .absent => some (.raised .fileNotFoundError, d)
  | .dir => some (.raised .isADirectoryError, d)
  | .file t => match E.parse t with
    | none => some (.raised .valueError, d)
    | some doc => match convert answers limit doc with
      | .error _ => some (.raised .valueError, d)
      | .ok (doc', _) => store E fuel (.path x) (E.dump doc') (output.map .path) n d

end Osp.Backup
