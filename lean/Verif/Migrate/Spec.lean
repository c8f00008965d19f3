import Verif.Migrate.Model
import Verif.Pico.Spec
/-!
# Specification for C95
-/
namespace Osp.Migrate
open Osp.Install

variable {G B R : Type}

/-- The package `d` is in the file `n` of the old installation. Specification. -/
def HasIn (l : List (Text × File B R)) (n : Text) (d : Doc B) : Prop := (n, File.pkg d) ∈ l ∧ n ≠ "ontology.cuba.yml".toList ∧ n ≠ "cuba.ontology.yml".toList

/-- The package `d` is one of the old installation: it is in a file other than that of CUBA. Specification. -/
def Has (l : List (Text × File B R)) (d : Doc B) : Prop := ∃ n, HasIn l n d

/-- What old versions of osp-core left behind: YAML ontologies in files with the ending .yml, whose names are different and have no dots and slashes. Specification. -/
structure Old (l : List (Text × File B R)) : Prop where
  names : (l.map (·.1)).Nodup
  flat : ∀ e ∈ l, '/' ∉ e.1
  yml : ∀ e ∈ l, ∃ i, e.1 = i ++ ".yml".toList
  pkg : ∀ e ∈ l, e.1 ≠ "ontology.cuba.yml".toList → e.1 ≠ "cuba.ontology.yml".toList → ∃ d, e.2 = .pkg d
  doc : ∀ d, Has l d → d.owl = false ∧ d.reqs ≠ .other ∧ '/' ∉ d.ident ∧ '.' ∉ d.ident
  once : ∀ n n' d d', HasIn l n d → HasIn l n' d' → d.ident = d'.ident → n = n'

/-- The packages can be arranged so that every one comes after everything it requires. Specification. -/
def Complete (l : List (Text × File B R)) : Prop := ∃ docs : List (Doc B), (∀ d, d ∈ docs ↔ Has l d) ∧ Arranged [] docs

/-- The packages can be parsed one after the other, in every order that respects the requirements. Specification. -/
def Parsable (E : Env G B R) (l : List (Text × File B R)) : Prop :=
  ∀ docs : List (Doc B), (∀ d, d ∈ docs ↔ Has l d) → (docs.map Doc.ident).Nodup → Arranged [] docs → ∃ g dir, Pico.Builds E dir E.cuba docs g

end Osp.Migrate
