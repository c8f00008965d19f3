import Verif.Persist.Model
/-!
# Specification: a database is a set of facts about the wrapper and the other objects

A fact speaks about "the wrapper" and about objects with their uids. Which uid the wrapper has is up to the session that writes or reads.
-/
namespace Osp.Persist
open Tables

/-- The wrapper, or another object. -/
inductive Node where
  | root
  | obj (u : Uid)
  deriving DecidableEq

/-- What a fact says about its subject: a relationship to a node, a type, or a value. -/
inductive FObj (D V : Type) where
  | node (n : Node)
  | ent (i : Iri)
  | lit (dt : Option D) (v : V)

structure Fact (D V : Type) where
  s : Node
  p : Iri
  o : FObj D V

variable {D V : Type}

/-- The node a session with wrapper `w` means by the uid `u`. -/
def said (w u : Uid) : Node := if u = w then .root else .obj u

/-- The uid a session with wrapper `w` shows for a node. -/
def seen (w : Uid) : Node → Uid
  | .root => w
  | .obj u => u

/-- The fact a session with wrapper `w` means by an object of a triple. -/
def saidObj (w : Uid) : Obj D V → FObj D V
  | .cuds u => .node (said w u)
  | .ent i => .ent i
  | .lit d v => .lit d v

/-- The fact a session with wrapper `w` means by a triple. -/
def saidTriple (w : Uid) (t : Triple D V) : Fact D V := ⟨said w t.s, t.p, saidObj w t.o⟩

def seenObj (w : Uid) : FObj D V → Obj D V
  | .node n => .cuds (seen w n)
  | .ent i => .ent i
  | .lit d v => .lit d v

/-- The triple a session with wrapper `w` shows for a fact. -/
def seenTriple (w : Uid) (f : Fact D V) : Triple D V := ⟨seen w f.s, f.p, seenObj w f.o⟩

/-- A database: which facts are stored. -/
abbrev Facts (D V : Type) := Fact D V → Prop

/-- The facts of an entry of a buffer. -/
def Entry.says (w : Uid) (e : Entry D V) (f : Fact D V) : Prop := ∃ x ∈ e.c, f = saidTriple w ⟨e.u, x.1, x.2⟩

/-- A commit: nothing is left about deleted objects, about an updated object exactly what the session says, about an added object also what the session says, about
the others what was there. -/
def specCommit (w : Uid) (b : Bufs D V) (S : Facts D V) : Facts D V := fun f =>
  (∀ u ∈ b.deleted, f.s ≠ said w u) ∧
  ((∃ e ∈ b.updated, e.says w f) ∨ (∀ e ∈ b.updated, f.s ≠ said w e.u) ∧ (S f ∨ ∃ e ∈ b.added, e.says w f))

/-- The objects of an entry and its values: no zero uid, no literal that looks like the IRI of an object, and the predicates are as the ontology says. -/
def Entry.Ok (E : Env D V) (dts : List D) (e : Entry D V) : Prop :=
  e.u ≠ 0 ∧ ∀ x ∈ e.c, (∀ u, x.2 = .cuds u → u ≠ 0) ∧ (∀ d v, x.2 = .lit d v → E.looks v = none) ∧ (⟨e.u, x.1, x.2⟩ : Triple D V).Ok E.toOnto dts

/-- The buffers are dictionaries. -/
def Bufs.Ok (E : Env D V) (dts : List D) (b : Bufs D V) : Prop :=
  (∀ e ∈ b.added, e.Ok E dts) ∧ (∀ e ∈ b.updated, e.Ok E dts) ∧ (b.updated.map Entry.u).Nodup ∧ ∀ u ∈ b.deleted, u ≠ 0

/-- Something is stored about what a session with wrapper `w` calls `u`. -/
def Known (S : Facts D V) (w u : Uid) : Prop := ∃ f, S f ∧ f.s = said w u

/-- What a session with wrapper `w` should have as triples of `u`. -/
def About (S : Facts D V) (w u : Uid) (x : Triple D V) : Prop := ∃ f, S f ∧ f.s = said w u ∧ x = seenTriple w f

/-- The types of the neighbours of `u`. -/
def NbTypes (S : Facts D V) (w u : Uid) (x : Triple D V) : Prop :=
  ∃ f n, S f ∧ f.s = said w u ∧ f.o = .node n ∧ ∃ k i, S k ∧ k.s = n ∧ k.o = .ent i ∧ x = seenTriple w k

/-- The replacement of the uid `a` by `b` in an object of a triple. -/
def swapObj (a b : Uid) : Obj D V → Obj D V
  | .cuds u => .cuds (if u = a then b else u)
  | .ent i => .ent i
  | .lit d v => .lit d v

/-- The replacement of the uid `a` by `b` in a triple. -/
def swap (a b : Uid) (t : Triple D V) : Triple D V := ⟨if t.s = a then b else t.s, t.p, swapObj a b t.o⟩

/-- What a load of `u` makes of the session. -/
structure Loaded (S : Facts D V) (u : Uid) (s s' : Ses D V) : Prop where
  root : s'.root = s.root
  reg : ∀ v, v ∈ s'.reg ↔ v ∈ s.reg ∨ v = u ∧ Known S s.root u
  g : ∀ x, x ∈ s'.g ↔ (x ∈ s.g ∧ ¬ (Known S s.root u ∧ u ∈ s.reg ∧ x.s = u)) ∨ About S s.root u x ∨ NbTypes S s.root u x

/-- What loading the objects `us` makes of the session. -/
structure LoadedAll (S : Facts D V) (us : List Uid) (s s' : Ses D V) : Prop where
  root : s'.root = s.root
  /-- exactly the objects about which something is stored are new -/
  reg : ∀ v, v ∈ s'.reg ↔ v ∈ s.reg ∨ v ∈ us ∧ Known S s.root v
  /-- everything that is stored about the loaded objects is there -/
  all : ∀ u ∈ us, ∀ x, About S s.root u x → x ∈ s'.g
  /-- nothing is there that is neither stored nor was there before, and of a registered object that was loaded not even the latter -/
  only : ∀ x ∈ s'.g, About S s.root x.s x ∨ x ∈ s.g ∧ ¬ (x.s ∈ us ∧ x.s ∈ s.reg ∧ Known S s.root x.s)
  /-- what was there is still there, except of loaded objects -/
  kept : ∀ x ∈ s.g, (x.s ∉ us ∨ ¬ Known S s.root x.s) → x ∈ s'.g

open Classical in
/-- What loading gives for an object. -/
noncomputable def answer (S : Facts D V) (w u : Uid) : Option Uid := if Known S w u then some u else none

/-- A stored relationship from the wrapper to the object `u`. -/
def Child (S : Facts D V) (u : Uid) : Prop := ∃ f, S f ∧ f.s = .root ∧ f.o = .node (.obj u)

/-- The state of the specification: the wrapper of the last session, the datatypes that have a table, and the facts. -/
structure Spec (D V : Type) where
  w : Uid
  dts : List D
  S : Facts D V

def specStart : Spec D V := ⟨0, [], fun _ => False⟩

variable [DecidableEq D]

def specStep (z : Spec D V) : Ev D V → Spec D V
  | .connect root _ dts => { z with w := root, dts := z.dts ++ dts.filter (fun d => d ∉ z.dts) }
  | .commit b => { z with S := specCommit z.w b z.S }
  | .load _ => z
  | .byOclass _ => z

def specRun (z : Spec D V) (evs : List (Ev D V)) : Spec D V := evs.foldl specStep z

/-- Nothing is stored about the wrapper's uid as if it were the uid of another object (which happens only if an earlier session, with another wrapper, had an object with
this uid). -/
def NoClash (S : Facts D V) (w : Uid) : Prop := ∀ f, S f → f.s ≠ .obj w

/-- Wrappers and loaded objects have a uid, wrappers give triples about themselves, a wrapper is no object of an earlier session, and buffers are in order. -/
def Ev.Ok (E : Env D V) (z : Spec D V) : Ev D V → Prop
  | .connect root own _ => root ≠ 0 ∧ NoClash z.S root ∧ ∀ x ∈ own, x.s = root
  | .commit b => z.w ≠ 0 ∧ b.Ok E z.dts
  | .load us => z.w ≠ 0 ∧ ∀ u ∈ us, u ≠ 0
  | .byOclass _ => z.w ≠ 0

def AllOk (E : Env D V) : Spec D V → List (Ev D V) → Prop
  | _, [] => True
  | z, e :: es => e.Ok E z ∧ AllOk E (specStep z e) es

end Osp.Persist
