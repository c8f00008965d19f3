import Verif.Cuds.Spec
import Verif.Store.Model
/-!
# Specification of copying objects between sessions

In terms of the user's view `Abs` of a session (objects with a class, attribute values, links). `A` is the session an object is added to, `B` the
session it comes from.
-/
namespace Osp.Store
open Osp.Cuds

/-- Is a relationship a default ("active") relationship, the kind that leads from a container to its content? -/
def Active (O : Onto) (r : Rel) : Prop := O.subRel r O.active = true

/-- The objects that are copied when `n` is stored by `self`: `n` and everything reachable from it in the source session over active
relationships, without entering `self`. -/
inductive Copied (O : Onto) (B : Abs) (self n : Uid) : Uid → Prop
  | start : Copied O B self n n
  | step {a r b} : Copied O B self n a → B.link a r b → Active O r → b ≠ self → Copied O B self n b

/-- The object `u` has at most one neighbour by relationship `q`. -/
def Single (A : Abs) (u : Uid) (q : Rel) : Prop := ∀ x y, A.link u q x → A.link u q y → x = y

/-- `A'` is the view of session `A` after the objects `C` of `B` were copied into it. -/
structure Imported (O : Onto) (A B : Abs) (C : Uid → Prop) (A' : Abs) : Prop where
  /-- copied objects are as in the source -/
  cls_copied : ∀ u, C u → A'.cls u = B.cls u
  attr_copied : ∀ u, C u → A'.attr u = B.attr u
  /-- other objects are untouched -/
  cls_other : ∀ u, ¬ C u → A'.cls u = A.cls u
  attr_other : ∀ u, ¬ C u → A'.attr u = A.attr u
  /-- so are the links between them -/
  link_other : ∀ a q b, ¬ C a → ¬ C b → (A'.link a q b ↔ A.link a q b)
  /-- between two copied objects there are all links of the source -/
  link_copied : ∀ a q b, C a → C b → B.link a q b → A'.link a q b
  /-- and no others, except old links by relationships that are not active in either direction -/
  link_copied_only : ∀ a q b, C a → C b → A'.link a q b → B.link a q b ∨ (A.link a q b ∧ ¬ Active O q ∧ ¬ Active O (O.inv q))
  /-- a copied object is linked to objects that are not copied as in the source, if they exist in the target session -/
  link_out : ∀ a q b, C a → ¬ C b → B.link a q b → A.cls b ≠ none → A'.link a q b
  /-- and besides to its old neighbours by relationships that are not active (its old parents) -/
  link_out_only : ∀ a q b, C a → ¬ C b → A'.link a q b → (B.link a q b ∧ A.cls b ≠ none) ∨ (A.link a q b ∧ ¬ Active O q)
  /-- in the other direction: objects that are not copied keep their links to copied ones, unless the copied object lists them as former content
  that it has no more; they get a link back from each new child in their place -/
  link_in : ∀ a q b, ¬ C a → C b → (A'.link a q b ↔
    (A.link a q b ∧ (Active O (O.inv q) → B.link b (O.inv q) a)) ∨ (B.link b (O.inv q) a ∧ ¬ Active O (O.inv q) ∧ A.cls a ≠ none))

/-- Object `a` has an old parent `x` by relationship `q` that stays outside (it is not copied, and the new version of `a` does not have it), and this
parent takes part in at least as many kinds of relationships as `a` has neighbours by `q`; counted are the relationships by which `x` contains
`a` and those to objects that are not copied. -/
def Rich (O : Onto) (A B : Abs) (C : Uid → Prop) (a : Uid) (q : Rel) : Prop :=
  ∃ x, A.link a q x ∧ ¬ C x ∧ ¬ B.link a q x ∧ ∃ kinds : List Rel, kinds.Nodup ∧
    (∀ p ∈ kinds, p = O.inv q ∨ ∃ y, ¬ C y ∧ A.link x p y) ∧
    ∀ nbrs : List Uid, nbrs.Nodup → (∀ y ∈ nbrs, A.link a q y) → nbrs.length ≤ kinds.length

/-- Copied objects that were in the target session before stay linked to an old parent (an object that contains it) that is not copied, where the
object has only one by that relationship, or one of them is rich in relationships. -/
def ParentsKept (O : Onto) (A B : Abs) (C : Uid → Prop) (A' : Abs) : Prop :=
  ∀ a q b, C a → ¬ C b → A.link a q b → ¬ Active O q → Active O (O.inv q) → Single A a q ∨ Rich O A B C a q → A'.link a q b

/-- Every neighbour of `a` by `q` that the new version of `a` does not have stays outside and takes part in at most `most` kinds of relationships:
the ones it had, and those by which it contains something that is copied. -/
def Poor (O : Onto) (A B : Abs) (C : Uid → Prop) (a : Uid) (q : Rel) (most : Nat) : Prop :=
  ∀ x, A.link a q x → ¬ B.link a q x → ¬ C x ∧ ∀ kinds : List Rel, kinds.Nodup →
    (∀ p ∈ kinds, ∃ y, A.link x p y ∨ (C y ∧ B.link y (O.inv p) x ∧ ¬ Active O (O.inv p))) → kinds.length ≤ most

/-- Of the neighbours of a copied object by `q` that its new version does not have, no more are kept than these have kinds of relationships. -/
def ParentsAtMost (O : Onto) (A B : Abs) (C : Uid → Prop) (A' : Abs) : Prop :=
  ∀ a q most, C a → Poor O A B C a q most → ∃ kept : List Uid, kept.length ≤ most ∧ ∀ b, A'.link a q b → B.link a q b ∨ b ∈ kept

/-- A session represents a view. As `Refines`, but the graph may contain type triples of uids for which there is no object. -/
structure Views (s : Sess) (A : Abs) : Prop where
  nodup : s.g.Nodup
  reg : ∀ u, u ∈ s.reg ↔ A.cls u ≠ none
  type : ∀ u c c', A.cls u = some c → ((⟨u, .type, .cls c'⟩ : Triple) ∈ s.g ↔ c' = c)
  attr : ∀ u a v, (⟨u, .attr a, .val v⟩ : Triple) ∈ s.g ↔ A.attr u a = some v
  link : ∀ u r x, (⟨u, .rel r, .cuds x⟩ : Triple) ∈ s.g ↔ A.link u r x
  kinds : ∀ t ∈ s.g, (∃ c, t.p = .type ∧ t.o = .cls c) ∨ (∃ a v, t.p = .attr a ∧ t.o = .val v) ∨ (∃ r x, t.p = .rel r ∧ t.o = .cuds x)
  owned : ∀ u a, A.attr u a ≠ none → A.cls u ≠ none

/-- The situation in which `_recursive_store` is called. -/
structure Setup (E : Order) (O : Onto) (s0 src : Sess) (A B : Abs) (me n : Uid) : Prop where
  order : E.Ok
  inv_inv : ∀ r, O.inv (O.inv r) = r
  refl : ∀ r, O.subRel r r = true
  viewA : Views s0 A
  cohA : A.Coherent O.inv
  viewB : Refines src B
  cohB : B.Coherent O.inv
  self_mem : A.cls me ≠ none
  n_mem : B.cls n ≠ none
  root : s0.root ≠ none
  /-- no object has the nil uid (it cannot be created) -/
  nil_uid : B.cls 0 = none
  /-- an object that exists in both sessions and is not copied has the same class in both -/
  same_class : ∀ x c c', ¬ Copied O B me n x → A.cls x = some c → B.cls x = some c' → c = c'
  /-- types left behind in the target session for objects that do not exist there agree with the objects that are copied -/
  stale : ∀ x c, A.cls x = none → (⟨x, .type, .cls c⟩ : Triple) ∈ s0.g → Copied O B me n x → B.cls x = some c
  /-- objects that are replaced are not linked to themselves -/
  loop_free : ∀ u q, Copied O B me n u → ¬ A.link u q u

end Osp.Store
