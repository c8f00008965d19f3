import Verif.Full.Database
import Verif.Persist.Witness
/-!
# Concrete exports, and what lies outside
-/
namespace Osp.Full
open Persist (E0 b1 evs Facts Fact Node)

/-! ### graphs -/

/-- An ontology with a custom datatype, an attribute with it, an attribute with a standard datatype, and a datatype of another namespace. -/
def onto0 : Graph :=
  let vec : Term := .iri "http://www.osp-core.com/cuba#_datatypes/VECTOR-2-2".toList
  let other : Term := .iri "http://x.org/dt".toList
  let pos : Term := .iri "http://x.org/position".toList
  let name : Term := .iri "http://x.org/name".toList
  [⟨vec, rdfType, rdfsDatatype⟩, ⟨pos, rdfsRange, vec⟩, ⟨other, rdfType, rdfsDatatype⟩, ⟨name, rdfsRange, other⟩]

/-- A session with one object. -/
def ses0 : Graph := [⟨.iri (Iri.iriFromUid 5), rdfType, .iri "http://x.org/City".toList⟩, ⟨.iri (Iri.iriFromUid 5), .iri "http://x.org/name".toList, .lit "Freiburg".toList none⟩]

/-- The first two triples are about the custom datatype, the other datatype is no custom one. -/
theorem ex_export : (getRdfGraph onto0 [] (.session (.ok ses0)) true).toOption = some (ses0 ++ onto0.drop 2) ∧
    (getRdfGraph onto0 [] (.session (.ok ses0)) false).toOption = some (ses0 ++ onto0) := by decide +kernel

/-- The hypotheses of `skip_keeps_objects` and `import_export` hold. -/
theorem ex_onto_only : OntoOnly onto0 ∧ ∀ x ∈ ses0, OfObject x := by
  have h : ∀ t : Text, (∃ r, t = "http://www.osp-core.com/cuds/#".toList ++ r) ↔ Iri.cudsPrefix.isPrefixOf t = true := fun _ => prefix_iff.symm
  constructor
  · intro x hx
    unfold OfObject
    rw [h]
    revert x
    decide +kernel
  · intro x hx
    unfold OfObject
    rw [h]
    revert x
    decide +kernel

/-- Finding (C86): after an import the graph of the session has the object, but the session cannot load it; and an object the session had before can still be loaded but has no
triples any more. -/
theorem import_loses : let s : Ses := rdfImport ses0 ⟨[7], [⟨.iri (Iri.iriFromUid 7), rdfType, .iri "http://x.org/City".toList⟩]⟩
    s.g = ses0 ∧ load 5 s = none ∧ load 7 s = some 7 ∧ (∀ x ∈ s.g, x.s ≠ .iri (Iri.iriFromUid 7)) := by decide +kernel

/-- Finding (C86): what counts is the text of the subject: a blank node or a text that begins like the IRI of an object is imported too. -/
theorem import_text : (rdfImport [⟨.bnode "http://www.osp-core.com/cuds/#".toList, rdfType, rdfType⟩] ⟨[], []⟩).g.length = 1 := by decide +kernel

/-! ### databases -/

/-- The database of `Persist.b1`: a new session, wrapper 20, has loaded the wrapper and object 1; the export also loads object 2. -/
theorem ex_full :
    let w := Persist.run E0 Persist.World.start (evs.take 2)
    let c := Persist.connect E0 20 [] [] w.st
    let f := fullGraph E0 4 c.2.1 c.2.2
    let ts : List (Tables.Triple Nat Nat) := [⟨2, "t#type".toList, .ent "b#B".toList⟩, ⟨2, "a#r".toList, .cuds 1⟩]
    c.2.1.reg = [20, 1] ∧ f.2.1.reg = [20, 1, 2] ∧ (match f.1 with | .ok g => decide ((∀ x ∈ g, x.s = 2 → x ∈ ts) ∧ ∀ x ∈ ts, x ∈ g) | .error _ => false) = true := by decide +kernel

/-- What is stored after the first commit. -/
def S1 : Facts Nat Nat := (Persist.specRun Persist.specStart (evs.take 2)).S

theorem s1_iff (f : Fact Nat Nat) : S1 f ↔ ∃ e ∈ b1.added, e.says 10 f := by
  constructor
  · rintro ⟨_, ⟨e, he, _⟩ | ⟨_, hf | h⟩⟩
    · cases he
    · exact hf.elim
    · exact h
  · intro h
    exact ⟨fun u hu => (by cases hu), Or.inr ⟨fun e he => (by cases he), Or.inr h⟩⟩

theorem s1_mem {e : Persist.Entry Nat Nat} (he : e ∈ b1.added) {x : Tables.Iri × Tables.Obj Nat Nat} (hx : x ∈ e.c) : S1 (Persist.saidTriple 10 ⟨e.u, x.1, x.2⟩) :=
  (s1_iff _).2 ⟨e, he, x, hx, rfl⟩

theorem below1 : Below S1 (.obj 1) := .step .root (s1_mem (e := ⟨10, [Persist.ty "b#W", Persist.rel 1]⟩) List.mem_cons_self (x := Persist.rel 1) (by simp)) rfl

theorem below2 : Below S1 (.obj 2) :=
  .step below1 (s1_mem (e := ⟨1, [Persist.ty "b#A", Persist.rel 10, Persist.rel 2, Persist.val 7]⟩) (by simp [b1]) (x := Persist.rel 2) (by simp)) rfl

/-- The hypotheses of `database_exact` and `history_export` hold for this database. -/
theorem ex_database : Persist.AllOk E0 Persist.specStart (evs.take 2) ∧ Persist.NoClash S1 20 ∧ (∃ f, S1 f ∧ f.s = .root) ∧ Complete S1 ∧ ∀ f, S1 f → Below S1 f.s := by
  refine ⟨⟨⟨by decide, fun f hf => hf.elim, by simp⟩, ⟨by decide, Persist.b1_ok⟩, trivial⟩, Persist.noClash_b1 (by decide) (by decide), ?_, ?_, ?_⟩
  · exact ⟨_, s1_mem (e := ⟨10, [Persist.ty "b#W", Persist.rel 1]⟩) List.mem_cons_self (x := Persist.rel 1) (by simp), rfl⟩
  · have hs : ∀ n, n = .root ∨ n = .obj 1 ∨ n = .obj 2 → ∃ k, S1 k ∧ k.s = n := by
      rintro n (rfl | rfl | rfl)
      · exact ⟨_, s1_mem (e := ⟨10, [Persist.ty "b#W", Persist.rel 1]⟩) List.mem_cons_self (x := Persist.rel 1) (by simp), rfl⟩
      · exact ⟨_, s1_mem (e := ⟨1, [Persist.ty "b#A", Persist.rel 10, Persist.rel 2, Persist.val 7]⟩) (by simp [b1]) (x := Persist.rel 2) (by simp), rfl⟩
      · exact ⟨_, s1_mem (e := ⟨2, [Persist.ty "b#B", Persist.rel 1]⟩) (by simp [b1]) (x := Persist.rel 1) (by simp), rfl⟩
    intro f n hf _ hn
    apply hs
    obtain ⟨e, he, x, hx, rfl⟩ := (s1_iff f).1 hf
    simp only [b1, List.mem_cons, List.not_mem_nil, or_false] at he
    rcases he with rfl | rfl | rfl <;> simp only [List.mem_cons, List.not_mem_nil, or_false] at hx
    · rcases hx with rfl | rfl
      · cases hn
      · cases hn; exact Or.inr (Or.inl rfl)
    · rcases hx with rfl | rfl | rfl | rfl
      · cases hn
      · cases hn; exact Or.inl rfl
      · cases hn; exact Or.inr (Or.inr rfl)
      · cases hn
    · rcases hx with rfl | rfl
      · cases hn
      · cases hn; exact Or.inr (Or.inl rfl)
  · intro f hf
    obtain ⟨e, he, hs⟩ := (s1_iff f).1 hf
    rw [Persist.says_s hs]
    simp only [b1, List.mem_cons, List.not_mem_nil, or_false] at he
    rcases he with rfl | rfl | rfl
    · exact .root
    · exact below1
    · exact below2

/-- Finding (C86): one relationship to an object that is not stored, below the wrapper, and the whole database cannot be exported: another session deleted object 2 without
knowing of the relationship from object 1. -/
theorem dangling_raises :
    let st := (Persist.commit E0 10 ⟨[], [], [2]⟩ (Persist.run E0 Persist.World.start (evs.take 2)).st).2
    let c := Persist.connect E0 20 [] [] st
    c.1.toBool = true ∧ (match (fullGraph E0 9 c.2.1 c.2.2).1 with | .error e => decide (e = .attributeError) | .ok _ => false) = true := by decide +kernel

end Osp.Full
