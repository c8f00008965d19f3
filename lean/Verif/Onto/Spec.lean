import Verif.Onto.Model
import Mathlib.Logic.Relation
/-!
# Specification of the ontology layer, independent of the algorithms of the model
-/
namespace Osp.Onto

variable {I : Type} [DecidableEq I]

/-- `b` is a direct super entity of `a` as stated in the ontology (one asserted triple, or one of the two special rules for the top / bottom entity).
`inverse = true` gives the sub entities. Blank nodes (anonymous class expressions) are no entities. -/
def OG.Step (g : OG I) (inverse : Bool) (a b : Node I) : Prop :=
  b.isBNode = false ∧
  match inverse with
  | false => if a = g.bottom then b ∈ g.typed else (a, b) ∈ g.sub
  | true => if a = g.top then b ∈ g.typed else (b, a) ∈ g.sub

/-- Reachable by any number of steps: the reflexive transitive closure. -/
def OG.Reach (g : OG I) (inverse : Bool) (a b : Node I) : Prop := Relation.ReflTransGen (g.Step inverse) a b

/-- All nodes occurring in the hierarchy; its length bounds the number of rounds. -/
def OG.nodes (g : OG I) : List (Node I) := g.sub.map (·.1) ++ g.sub.map (·.2) ++ g.typed

/-- `x` and `y` are stated to be inverse of each other, in either direction. Blank nodes do not count. -/
def RG.Partner (g : RG I) (x y : Node I) : Prop :=
  ((x, y) ∈ g.inv ∨ (y, x) ∈ g.inv) ∧ x.isBNode = false ∧ y.isBNode = false

/-- `n` occurs in the graph as an entity or in the hierarchy. -/
def RG.Mentions (g : RG I) (n : Node I) : Prop := g.og.known n = true ∨ n ∈ g.og.nodes

/-- What an ontology must satisfy for inverses to be well defined: nobody has two inverses, inverses are known relationships, and the names the code
generates (`mk`) are not used otherwise. -/
structure RG.WF (mk : (Node I) → (Node I)) (g : RG I) : Prop where
  one : ∀ x y z, g.Partner x y → g.Partner x z → y = z
  fresh : ∀ x y, g.Partner (mk x) y → y = x
  ment : ∀ x, g.Mentions (mk x) → g.Partner (mk x) x
  iri : ∀ x, g.og.known x = true → x.isBNode = false
  known : ∀ x y, g.Partner x y → g.og.known y = true

/-- `g'` extends `g` by new inverse relationships only. -/
structure RG.Extends (g g' : RG I) : Prop where
  partner : ∀ x y, g.Partner x y → g'.Partner x y
  known : ∀ x, g.og.known x = true → g'.og.known x = true
  sub : ∀ t, t ∈ g.og.sub → t ∈ g'.og.sub
  inv : ∀ t, t ∈ g.inv → t ∈ g'.inv
  typed : ∀ x, x ∈ g.og.typed → x ∈ g'.og.typed
  /-- new hierarchy triples are about relationships that did not exist before -/
  newSub : ∀ t, t ∈ g'.og.sub → t ∈ g.og.sub ∨ ¬ g.Mentions t.1
  /-- new inverse statements are only added to relationships without inverse, and point to relationships that did not exist -/
  newInv : ∀ t, t ∈ g'.inv → t ∈ g.inv ∨ ((∀ y, ¬ g.Partner t.1 y) ∧ ¬ g.Mentions t.2)
  newTyped : ∀ x, x ∈ g'.og.typed → x ∈ g.og.typed ∨ ¬ g.Mentions x
  top : g'.og.top = g.og.top
  bottom : g'.og.bottom = g.og.bottom
  blacklist : g'.og.blacklist = g.og.blacklist

end Osp.Onto
