import Verif.Cuds.Model
/-!
# Specification of the CUDS API: what a user thinks a session contains

No graphs, no registries: objects with a class, attribute values, and links between objects.
-/
namespace Osp.Cuds

/-- The user's view of a session. -/
structure Abs where
  /-- the class of each existing object -/
  cls : Uid → Option Cls
  /-- the value of each attribute of each object -/
  attr : Uid → Attr → Option Val
  /-- `link a r b`: `a` is connected to `b` by relationship `r` -/
  link : Uid → Rel → Uid → Prop

/-- The empty session. -/
def Abs.empty : Abs := ⟨fun _ => none, fun _ _ => none, fun _ _ _ => False⟩

/-- A new object of class `c` with the given attribute values and no links. -/
def Abs.create (A : Abs) (u : Uid) (c : Cls) (vals : List (Attr × Val)) : Abs where
  cls v := if v = u then some c else A.cls v
  attr v a := if v = u then vals.lookup a else A.attr v a
  link := A.link

/-- Connect `self` by `r` to all objects of `xs`, and each of them back by the inverse relationship. -/
def Abs.connect (inv : Rel → Rel) (A : Abs) (self : Uid) (r : Rel) (xs : List Uid) : Abs where
  cls := A.cls
  attr := A.attr
  link a q b := A.link a q b ∨ (a = self ∧ q = r ∧ b ∈ xs) ∨ (b = self ∧ q = inv r ∧ a ∈ xs)

/-- Disconnect `self` from those neighbours, by those relationships, that the filter selects, in both directions. -/
def Abs.disconnect (inv : Rel → Rel) (A : Abs) (self : Uid) (sel : Rel → Uid → Prop) : Abs where
  cls := A.cls
  attr := A.attr
  link a q b := A.link a q b ∧ ¬ (a = self ∧ A.link self q b ∧ sel q b) ∧
    ¬ (b = self ∧ ∃ r, inv r = q ∧ A.link self r a ∧ sel r a)

/-- Overwrite an attribute. -/
def Abs.setAttr (A : Abs) (u : Uid) (a : Attr) (v : Val) : Abs where
  cls := A.cls
  attr u' a' := if u' = u ∧ a' = a then some v else A.attr u' a'
  link := A.link

/-- The object, its attributes and all links from and to it disappear. -/
def Abs.delete (A : Abs) (u : Uid) : Abs where
  cls v := if v = u then none else A.cls v
  attr v a := if v = u then none else A.attr v a
  link a q b := A.link a q b ∧ a ≠ u ∧ b ≠ u

/-- The filter of `get` and `remove`: uids (empty: no restriction), a relationship and its subclasses, a class and its subclasses. -/
def Abs.selects (O : Onto) (A : Abs) (uids : List Uid) (rel : Option Rel) (oc : Option Cls) (r : Rel) (x : Uid) : Prop :=
  (uids = [] ∨ x ∈ uids) ∧ (∀ r', rel = some r' → O.subRel r r' = true) ∧
  (∀ c, oc = some c → ∃ c', A.cls x = some c' ∧ O.subCls c' c = true)

/-- Every link is present in both directions, and only between existing objects. -/
structure Abs.Coherent (inv : Rel → Rel) (A : Abs) : Prop where
  sym : ∀ a r b, A.link a r b → A.link b (inv r) a
  src : ∀ a r b, A.link a r b → A.cls a ≠ none
  dst : ∀ a r b, A.link a r b → A.cls b ≠ none

/-- A session graph and registry represent a user's view: exactly these triples. -/
structure Refines (s : Sess) (A : Abs) : Prop where
  nodup : s.g.Nodup
  reg : ∀ u, u ∈ s.reg ↔ A.cls u ≠ none
  type : ∀ u c, (⟨u, .type, .cls c⟩ : Triple) ∈ s.g ↔ A.cls u = some c
  attr : ∀ u a v, (⟨u, .attr a, .val v⟩ : Triple) ∈ s.g ↔ A.attr u a = some v
  link : ∀ u r x, (⟨u, .rel r, .cuds x⟩ : Triple) ∈ s.g ↔ A.link u r x
  kinds : ∀ t ∈ s.g, (∃ c, t.p = .type ∧ t.o = .cls c) ∨ (∃ a v, t.p = .attr a ∧ t.o = .val v) ∨ (∃ r x, t.p = .rel r ∧ t.o = .cuds x)
  owned : ∀ u a, A.attr u a ≠ none → A.cls u ≠ none

/-- What the ontology guarantees about relationships: `inverse` is an involution and everything is below `cuba:relationship`. -/
structure Onto.WF (O : Onto) : Prop where
  inv_inv : ∀ r, O.inv (O.inv r) = r
  top : ∀ r, O.subRel r O.relationship = true

/-- One API call on the user's view: result and new view. (Every call inside the scope `Op.Ok` is covered by exactly one rule.) -/
inductive SpecStep (O : Onto) (A : Abs) : Op → Except PyErr Unit → Abs → Prop
  | create (u c vals) : u ≠ 0 → SpecStep O A (.create u c vals) (.ok ()) (A.create u c vals)
  | createZero (c vals) : SpecStep O A (.create 0 c vals) (.error .valueError) A
  | addNoRel (self args) : SpecStep O A (.add self args none none) (.error .typeError) A
  | add (self args rel d r) : rel.or d = some r → args.Nodup → (∀ x ∈ args, ¬ A.link self r x) →
      SpecStep O A (.add self args rel d) (.ok ()) (A.connect O.inv self r args)
  | addDup (self pre x post rel d r) : rel.or d = some r → pre.Nodup → (∀ y ∈ pre, ¬ A.link self r y) → (A.link self r x ∨ x ∈ pre) →
      SpecStep O A (.add self (pre ++ x :: post) rel d) (.error .valueError) (A.connect O.inv self r pre)
  | remove (self uids rel oc) : (uids = [] ∨ oc = none) → (∃ r x, A.link self r x ∧ A.selects O uids rel oc r x) →
      SpecStep O A (.remove self uids rel oc) (.ok ()) (A.disconnect O.inv self (A.selects O uids rel oc))
  | removeNone (self uids rel oc) : (uids = [] ∨ oc = none) → (¬ ∃ r x, A.link self r x ∧ A.selects O uids rel oc r x) →
      SpecStep O A (.remove self uids rel oc) (.error .runtimeError) A
  | removeBad (self uids rel c) : uids ≠ [] → SpecStep O A (.remove self uids rel (some c)) (.error .typeError) A
  | setAttr (u a v c v') : A.cls u = some c → a ∈ O.attrs c → O.conv a v = some v' →
      SpecStep O A (.setAttr u a v) (.ok ()) (A.setAttr u a v')
  | setAttrBad (u a v c) : A.cls u = some c → a ∉ O.attrs c → SpecStep O A (.setAttr u a v) (.error .attributeError) A
  | setAttrConv (u a v c) : A.cls u = some c → a ∈ O.attrs c → O.conv a v = none → SpecStep O A (.setAttr u a v) (.error .valueError) A
  | delete (u) : SpecStep O A (.delete u) (.ok ()) (A.delete u)

/-- A history of calls on the user's view with the results they return. -/
inductive SpecRun (O : Onto) : Abs → List Op → List (Except PyErr Unit) → Abs → Prop
  | nil (A) : SpecRun O A [] [] A
  | cons {A op res A' ops ress A''} : SpecStep O A op res A' → SpecRun O A' ops ress A'' → SpecRun O A (op :: ops) (res :: ress) A''

end Osp.Cuds
