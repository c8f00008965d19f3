import Verif.Pico.Model
/-!
# Model of pico commands whose process is killed (C109)

`osp/core/ontology/installation.py` (ins:), `parser.py` (par:), `namespace_registry.py` (reg:). What a command writes to the installation directory, one operation after the
other; the process may be killed between two operations, and while a file is written. `shutil.rmtree` and `os.makedirs` (ins:152-153) are the
removal of every file; a directory that does not exist is made by the next process (namespaces.py:12-22), so that it is the same as an empty one. What is in a file that was only written in part
is left open.
-/
namespace Osp.Killed
open Osp.Install

variable {G B R : Type}

/-- An operation on the installation directory: a file is removed (ins:152) or written (par:80-87, reg:249-252). -/
inductive FOp (B R : Type) where
  | remove (name : Text)
  | write (name : Text) (f : File B R)

/-- What an operation does to the directory, ins:152, par:80-87, reg:249-252. -/
def FOp.exec (dir : List (Text × File B R)) : FOp B R → List (Text × File B R)
  | .remove n => dir.filter (fun e => e.1 ≠ n)
  | .write n f => put n f dir

/-- The operations of `Parser.store` for one document, par:74-87; `none`: it raises before. -/
def docOps (graphs : List (Text × R)) (d : Doc B) : Option (List (FOp B R)) :=
  let i := d.ident
  if d.owl then
    match look graphs i with
    | none => none
    | some c =>
      if '/' ∈ i then none
      else some [.write (i ++ dotXml) (.rdf xml c), .write (i ++ dotYml) (.pkg { d with file := i ++ dotXml })]
  else if '/' ∈ i then none
  else some [.write (i ++ dotYml) (.pkg d)]

/-- The operations of `Parser.store`, par:68-87, and whether it ends without an exception. -/
def docsOps (graphs : List (Text × R)) : List (Doc B) → List (FOp B R) × Bool
  | [] => ([], true)
  | d :: l =>
    match docOps graphs d with
    | none => ([], false)
    | some ops => (ops ++ (docsOps graphs l).1, (docsOps graphs l).2)

/-- The operations of `NamespaceRegistry.store`, reg:241-252. -/
def regOps (E : Env G B R) (g : G) : List (FOp B R) := [.write graphXml (.rdf xml (E.dump g)), .write namespacesTxt (.names (E.dump g))]

/-- The operations of a command, `_install`, ins:131-157. -/
def planned (E : Env G B R) (filter : World G B R → List Text → Except PyErr (List Text)) (clear : Bool) (w : World G B R) (files : List Text) : List (FOp B R) :=
  let inst := if clear then [] else w.installed E
  let w1 := if clear then { w with graph := E.cuba, names := E.cuba } else w
  match filter w1 files with
  | .error _ => []
  | .ok fs =>
    match sortFor E w1 fs inst with
    | .error _ => []
    | .ok order =>
      match parseAll E w1 { graph := w1.graph, docs := [], graphs := [] } order with
      | (_, some _) => []
      | (P, none) =>
        (if clear then w.dir.map (fun e => .remove e.1) else []) ++ (docsOps P.graphs P.docs).1 ++ (if (docsOps P.graphs P.docs).2 then regOps E P.graph else [])

/-- What may be left of the directory if the process is killed: some operations were done, and possibly a part of the next one: a file with any content. Modelling device:
nothing in /repo. -/
def Left (ops : List (FOp B R)) (dir dir' : List (Text × File B R)) : Prop :=
  ∃ k, dir' = (ops.take k).foldl FOp.exec dir ∨ ∃ n f c, ops[k]? = some (.write n f) ∧ dir' = put n c ((ops.take k).foldl FOp.exec dir)

/-- Does loading the installed ontologies raise? The saved graph that is there cannot be parsed: reg:266-267; namespaces.py:24-27 only catches RuntimeError. -/
def startRaises (dir : List (Text × File B R)) : Bool :=
  match look dir graphXml with
  | some (.rdf _ _) => false
  | some _ => true
  | none => false

/-- A pico command in a directory that may be damaged: the namespaces are imported (ins:24-30, called at pico.py:55) before the `try` of pico.py:57. -/
def command (E : Env G B R) (empty : G) (spaces : G → List Text) (level : Option PyErr) (w : World G B R) (c : Osp.Pico.Cmd) : World G B R × Except PyErr Osp.Pico.Outcome :=
  if startRaises w.dir then (w, .error .exception) else Osp.Pico.pico E empty spaces level w c

end Osp.Killed
