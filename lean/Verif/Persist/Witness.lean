import Verif.Persist.History
/-!
# Concrete sessions, and what lies outside
-/
namespace Osp.Persist
open Tables

/-- An element is put in front unless it is there. -/
def dedup : List Uid → List Uid
  | [] => []
  | u :: us => if u ∈ dedup us then dedup us else u :: dedup us

theorem mem_dedup (l : List Uid) (u : Uid) : u ∈ dedup l ↔ u ∈ l := by
  induction l with
  | nil => exact Iff.rfl
  | cons a l ih =>
    unfold dedup
    split
    · rename_i h
      rw [List.mem_cons]
      exact ⟨fun h' => Or.inr (ih.1 h'), fun h' => h'.elim (fun e => by rw [e]; exact h) ih.2⟩
    · rw [List.mem_cons, List.mem_cons, ih]

theorem dedup_nodup (l : List Uid) : (dedup l).Nodup := by
  induction l with
  | nil => exact List.nodup_nil
  | cons a l ih =>
    unfold dedup
    split
    · exact ih
    · rename_i h; exact List.nodup_cons.2 ⟨h, ih⟩

/-- The ontology of `Verif/Tables`; the literal 99 is the text of the IRI of object 10, the literal 98 begins like the IRI of an object. -/
def E0 : Env Nat Nat where
  toOnto := O0
  looks v := if v = 99 then some (.ok 10) else if v = 98 then some (.error .valueError) else none
  order := dedup
  order_mem := mem_dedup
  order_nodup := dedup_nodup

/-- A type, a relationship, a value. -/
def ty (c : String) : Iri × Obj Nat Nat := ("t#type".toList, .ent c.toList)
def rel (u : Uid) : Iri × Obj Nat Nat := ("a#r".toList, .cuds u)
def val (v : Nat) : Iri × Obj Nat Nat := ("a#v".toList, .lit (some 1) v)

/-- The first session, wrapper 10: objects 1 and 2 with values and relationships. -/
def b1 : Bufs Nat Nat := ⟨[⟨10, [ty "b#W", rel 1]⟩, ⟨1, [ty "b#A", rel 10, rel 2, val 7]⟩, ⟨2, [ty "b#B", rel 1]⟩], [], []⟩

/-- Then a second session, wrapper 20, which changes the value of 1 and deletes 2. -/
def b2 : Bufs Nat Nat := ⟨[], [⟨1, [ty "b#A", rel 20, val 8]⟩], [2]⟩

def evs : List (Ev Nat Nat) := [.connect 10 [⟨10, "t#type".toList, .ent "b#W".toList⟩] [0, 1], .commit b1, .load [1, 2], .byOclass ["b#A".toList],
  .connect 20 [⟨20, "t#type".toList, .ent "b#W".toList⟩] [], .load [1, 2], .commit b2]

theorem entry_ok {u : Uid} (hu : u ≠ 0) {c : List (Iri × Obj Nat Nat)} (h : ∀ x ∈ c, (∃ k, x = ty k) ∨ (∃ v, v ≠ 0 ∧ x = rel v) ∨ ∃ v, E0.looks v = none ∧ x = val v) :
    (⟨u, c⟩ : Entry Nat Nat).Ok E0 [0, 1] := by
  refine ⟨hu, fun x hx => ?_⟩
  rcases h x hx with ⟨k, rfl⟩ | ⟨v, hv, rfl⟩ | ⟨v, hv, rfl⟩
  · exact ⟨fun _ e => (by cases e), fun _ _ e => (by cases e), rfl⟩
  · exact ⟨fun _ e => (by cases e; exact hv), fun _ _ e => (by cases e), (by decide : "a#r".toList ≠ O0.rdfType), (by decide : O0.kind "a#r".toList = some .rel)⟩
  · exact ⟨fun _ e => (by cases e), fun _ _ e => (by cases e; exact hv), (by decide : "a#v".toList ≠ O0.rdfType), some 1, (by decide : O0.kind "a#v".toList = some (.attr (some 1))), rfl, by decide⟩

theorem b1_ok : b1.Ok E0 [0, 1] := by
  refine ⟨?_, by simp [b1], by simp [b1], by simp [b1]⟩
  intro e he
  simp only [b1, List.mem_cons, List.not_mem_nil, or_false] at he
  rcases he with rfl | rfl | rfl
  · refine entry_ok (by decide) ?_
    intro x hx
    simp only [List.mem_cons, List.not_mem_nil, or_false] at hx
    rcases hx with rfl | rfl
    · exact Or.inl ⟨_, rfl⟩
    · exact Or.inr (Or.inl ⟨1, by decide, rfl⟩)
  · refine entry_ok (by decide) ?_
    intro x hx
    simp only [List.mem_cons, List.not_mem_nil, or_false] at hx
    rcases hx with rfl | rfl | rfl | rfl
    · exact Or.inl ⟨_, rfl⟩
    · exact Or.inr (Or.inl ⟨10, by decide, rfl⟩)
    · exact Or.inr (Or.inl ⟨2, by decide, rfl⟩)
    · exact Or.inr (Or.inr ⟨7, rfl, rfl⟩)
  · refine entry_ok (by decide) ?_
    intro x hx
    simp only [List.mem_cons, List.not_mem_nil, or_false] at hx
    rcases hx with rfl | rfl
    · exact Or.inl ⟨_, rfl⟩
    · exact Or.inr (Or.inl ⟨1, by decide, rfl⟩)

theorem b2_ok : b2.Ok E0 [0, 1] := by
  refine ⟨by simp [b2], ?_, by simp [b2], by simp [b2]⟩
  intro e he
  simp only [b2, List.mem_cons, List.not_mem_nil, or_false] at he
  subst he
  refine entry_ok (by decide) ?_
  intro x hx
  simp only [List.mem_cons, List.not_mem_nil, or_false] at hx
  rcases hx with rfl | rfl | rfl
  · exact Or.inl ⟨_, rfl⟩
  · exact Or.inr (Or.inl ⟨20, by decide, rfl⟩)
  · exact Or.inr (Or.inr ⟨8, rfl, rfl⟩)

/-- After the commit of the first session nothing is stored about an object other than 1 and 2. -/
theorem noClash_b1 {w : Uid} (h1 : w ≠ 1) (h2 : w ≠ 2) : NoClash (specCommit 10 b1 (fun _ => False)) w := by
  rintro f ⟨_, ⟨e, he, _⟩ | ⟨_, hf | ⟨e, he, hs⟩⟩⟩
  · simp [b1] at he
  · exact hf.elim
  · rw [says_s hs]
    simp only [b1, List.mem_cons, List.not_mem_nil, or_false] at he
    rcases he with rfl | rfl | rfl
    · exact fun q => by cases q
    · exact fun q => by injection q with q; exact h1 q.symm
    · exact fun q => by injection q with q; exact h2 q.symm

/-- The history is in scope. -/
theorem evs_ok : AllOk E0 specStart evs := by
  refine ⟨⟨by decide, fun f hf => hf.elim, by simp⟩, ⟨by decide, b1_ok⟩, ⟨by decide, by decide⟩, (by decide : (10 : Nat) ≠ 0), ⟨by decide, noClash_b1 (by decide) (by decide), by simp⟩,
    ⟨by decide, by decide⟩, ⟨by decide, b2_ok⟩, trivial⟩

/-- A third session, wrapper 30, gets what the second one committed, with 20 replaced by 30; object 2 is gone, its relationship from the wrapper too. -/
theorem ex_third_session :
    let w := run E0 World.start evs
    let c := connect E0 30 [] [] w.st
    let ts : List (Triple Nat Nat) := [⟨1, "t#type".toList, .ent "b#A".toList⟩, ⟨1, "a#r".toList, .cuds 30⟩, ⟨1, "a#v".toList, .lit (some 1) 8⟩]
    raised E0 World.start evs = none ∧ c.1.toBool = true ∧ c.2.1.reg = [30, 1] ∧ (∀ x ∈ c.2.1.g, x.s = 1 → x ∈ ts) ∧ (∀ x ∈ ts, x ∈ c.2.1.g) ∧
      (loadByIri E0 2 c.2.1 c.2.2).1.toOption = some none := by decide +kernel

/-! ### what lies outside -/

/-- A session with wrapper 10 on a database with object 1, related to object 2 of class `b#B`; the wrapper is related to 1 only. -/
def w1 : World Nat Nat := run E0 World.start [.connect 10 [] [0, 1], .commit b1, .connect 10 [] []]

/-- Finding (C85, C43): the types of the neighbours stay in the graph. If another session meanwhile stored object 2 with another class, loading 2 for the first time shows both
classes: the triples of an object that is not registered are not removed before the stored ones are added. -/
theorem stale_type_kept :
    let st := (commit E0 20 ⟨[], [⟨2, [ty "b#C"]⟩], []⟩ w1.st).2
    (w1.s.reg, ((loadByIri E0 2 w1.s st).2.1.g.filter (fun x => decide (x.s = 2))).map Triple.o) =
      ([10, 1], [.ent "b#B".toList, .ent "b#C".toList]) := by decide +kernel

/-- Finding (C85, C41): an object created with the uid of an object that is stored but not loaded is merged with it: afterwards both values are stored. -/
theorem added_is_merged :
    ((loadByIri E0 1 ⟨30, [], []⟩ (commit E0 10 ⟨[⟨1, [ty "b#A", val 9]⟩], [], []⟩ w1.st).2).2.1.g.filter (fun x => decide (x.p = "a#v".toList))).map Triple.o =
      [.lit (some 1) 7, .lit (some 1) 9] := by decide +kernel

/-- Finding (C40, C85): a value that is the text of the wrapper's IRI is stored as a relationship to the wrapper, with the attribute as predicate; a value that only begins like
the IRI of an object makes the commit fail. -/
theorem literal_iris :
    ((loadByIri E0 5 ⟨30, [], []⟩ (commit E0 10 ⟨[⟨5, [ty "b#A", val 99]⟩], [], []⟩ w1.st).2).2.1.g.filter (fun x => decide (x.p = "a#v".toList))).map Triple.o = [.cuds 30] ∧
    (commit E0 10 ⟨[⟨5, [ty "b#A", val 98]⟩], [], []⟩ w1.st).1.toOption = none := by decide +kernel

/-- Finding (C85): a session whose wrapper has the uid of an object of an earlier session takes relationships to this object for relationships to the wrapper. -/
theorem clash_confuses :
    (loadByIri E0 1 ⟨2, [2], []⟩ w1.st).2.1.g.filterMap (fun x => match x.o with | .cuds u => some u | _ => none) = [2, 2] := by decide +kernel

end Osp.Persist
