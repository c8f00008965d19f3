import Verif.Install.Model
/-!
# Specification vocabulary for the installation of packages

Nothing here depends on how the packages are sorted or stored.
-/
namespace Osp.Install
variable {G B R : Type}

/-- In this order every package comes after everything it requires, except for what is there already. -/
def InOrder (req : Text → Text → Prop) (there : List Text) (order : List Text) : Prop :=
  ∀ before x after, order = before ++ x :: after → ∀ r, req x r → r ∈ there ∨ r ∈ before

/-- A document requires the name `r`. -/
def Doc.Requires (d : Doc B) (r : Text) : Prop := ∃ l, d.reqs = .list l ∧ r ∈ l

/-- In this order of documents every package comes after everything it requires, except for what is there already. -/
def Arranged (there : List Text) (docs : List (Doc B)) : Prop :=
  ∀ before d after, docs = before ++ d :: after → ∀ r, d.Requires r → r ∈ there ∨ ∃ d' ∈ before, d'.ident = r

/-- The documents of the given files. -/
def DocsOf (E : Env G B R) (w : World G B R) (files : List Text) (d : Doc B) : Prop := ∃ f ∈ files, readDoc E w f = .ok d

/-- The document of the installed package `i`: the content of the file `i.yml`. -/
def World.docOf (w : World G B R) (i : Text) : Option (Doc B) :=
  match look w.dir (i ++ dotYml) with
  | some (.pkg d) => some d
  | _ => none

/-- An installed package requires a name. -/
def World.Requires (w : World G B R) (i r : Text) : Prop := ∃ d, w.docOf i = some d ∧ d.Requires r

/-- Two documents are those of the same package: they differ at most in the location of the RDF file. -/
def Doc.Same (d d' : Doc B) : Prop := { d with file := [] } = { d' with file := [] }

end Osp.Install
