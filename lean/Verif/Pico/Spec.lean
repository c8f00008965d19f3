import Verif.Pico.Model
import Verif.Install.Ops
/-!
# Specification for C94
-/
namespace Osp.Pico
open Osp.Install

variable {G B R : Type}

/-- Parsing these packages, with the RDF files in the directory, takes the graph from `g` to `g'`. Specification. -/
inductive Builds (E : Env G B R) (dir : List (Text × File B R)) : G → List (Doc B) → G → Prop where
  | nil (g : G) : Builds E dir g [] g
  | yml {g g1 g2 : G} {d : Doc B} {l : List (Doc B)} (ho : d.owl = false) (hg : E.yml g d = (g1, none)) (hl : Builds E dir g1 l g2) : Builds E dir g (d :: l) g2
  | rdf {g g1 g2 : G} {d : Doc B} {l : List (Doc B)} {c : R} (ho : d.owl = true) (hc : look dir (d.ident ++ ".xml".toList) = some (.rdf xml c)) (hg : E.rdf g d c = (g1, none))
      (hl : Builds E dir g1 l g2) : Builds E dir g (d :: l) g2

/-- The directory is in order: the graph that the next process loads is `g`, and it is what parsing exactly the installed packages gives, in an order that respects the requirements.
Specification. -/
structure Sound (E : Env G B R) (dir : List (Text × File B R)) (g : G) : Prop where
  tidy : Tidy dir
  built : ∃ docs, (∀ d, d ∈ docs ↔ ∃ i, docIn dir i = some d) ∧ (docs.map Doc.ident).Nodup ∧ Arranged [] docs ∧ Builds E dir E.cuba docs g
  saved : (look dir graphXml = none ∧ g = E.cuba) ∨ (look dir graphXml = some (.rdf xml (E.dump g)) ∧ (look dir namespacesTxt).isSome = true)
  graph : ∀ d, docIn dir "graph".toList = some d → d.owl = false

/-- The files named in the command can be stored: no slash in the name of the package, and for RDF packages no capital letter and not the name `graph`. Specification. -/
def Fit (E : Env G B R) (w : World G B R) : Cmd → Prop
  | .install _ files => ∀ f ∈ files, ∀ d, readDoc E w f = .ok d → '/' ∉ d.ident ∧ (d.owl = true → d.name = d.ident ∧ d.ident ≠ "graph".toList)
  | _ => True

/-- Parsing an RDF package does not depend on where its RDF file is, only on the content. Specification. -/
def PathFree (E : Env G B R) : Prop := ∀ g d c f, E.rdf g { d with file := f } c = E.rdf g d c

/-- What was written can be read. Specification. -/
def Reloads (E : Env G B R) : Prop := ∀ g, E.load (E.dump g) = g

/-- The state of the directory after some commands, each of them a process of its own; the user's files may change in between. Specification. -/
inductive History (E : Env G B R) (empty : G) (spaces : G → List Text) : List (Text × File B R) → List (Text × File B R) → Prop where
  | start (dir : List (Text × File B R)) : History E empty spaces dir dir
  | next {dir dir' : List (Text × File B R)} (w : World G B R) (level : Option PyErr) (c : Cmd) (hw : w.dir = dir') (hu : Undotted w) (hf : Fit E w c)
      (h : History E empty spaces dir dir') : History E empty spaces dir (pico E empty spaces level w c).1.dir

end Osp.Pico
