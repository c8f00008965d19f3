import Verif.Copy.Props
/-! What a copy holds, and which calls with a copy are refused. -/
namespace Osp.Copy
open Osp.Cuds Osp.Store

variable {E : Order} {O : Onto} {s0 src : Sess} {A B : Abs} {me n : Uid}

/-- **C108.** A copy holds the triples of the object and the types of the objects it is linked to, and nothing else of the session. -/
theorem copy_holds (g : Graph) (u : Uid) (t : Triple) :
    t ∈ (copy g u).g ↔ t ∈ g ∧ (t.s = u ∨ (t.p = .type ∧ ∃ p, (⟨u, p, .cuds t.s⟩ : Triple) ∈ g)) := by
  have hf : ∀ (l : List Triple) (g : Graph), t ∈ l.foldl Graph.add g ↔ t ∈ g ∨ t ∈ l := by
    intro l
    induction l with
    | nil => simp
    | cons a l ih =>
      intro g
      rw [List.foldl_cons, ih, mem_gadd, List.mem_cons]
      constructor
      · rintro ((h | h) | h)
        · exact Or.inr (Or.inl h)
        · exact Or.inl h
        · exact Or.inr (Or.inr h)
      · rintro (h | h | h)
        · exact Or.inl (Or.inr h)
        · exact Or.inl (Or.inl h)
        · exact Or.inr h
  unfold copy
  simp only
  rw [hf]
  unfold getTriples
  simp only [List.not_mem_nil, false_or, List.mem_append, List.mem_flatMap, mem_dedup, List.mem_map, mem_gtriples, matchesPat_iff]
  constructor
  · rintro (h | ⟨o, ⟨q, ⟨hq, hq'⟩, rfl⟩, ht⟩)
    · exact ⟨h.1, Or.inl (by simpa [eq_comm] using h.2)⟩
    · cases hqo : q.o with
      | cuds x =>
        rw [hqo] at ht
        simp only [mem_gtriples, matchesPat_iff] at ht
        obtain ⟨h1, h2⟩ := ht
        have hx : t.s = x ∧ t.p = .type := by simpa [eq_comm] using h2
        have hs : q.s = u := by simpa [eq_comm] using hq'
        refine ⟨h1, Or.inr ⟨hx.2, q.p, ?_⟩⟩
        have e : q = ⟨u, q.p, .cuds x⟩ := by rw [← hs, ← hqo]
        rw [hx.1, ← e]
        exact hq
      | _ => rw [hqo] at ht; simp at ht
  · rintro ⟨h, rfl | ⟨hp, p, hl⟩⟩
    · exact Or.inl ⟨h, by simp⟩
    · refine Or.inr ⟨.cuds t.s, ⟨_, ⟨hl, by simp⟩, rfl⟩, ?_⟩
      simp only [mem_gtriples, matchesPat_iff]
      exact ⟨h, by simp [hp]⟩

/-- **C108.** A copy is equal to the object with its uid if that still has the class of the copy, and to nothing else. -/
theorem copy_eq_iff (c : Copy) (g : Graph) (x : Uid) : c.eq g x = true ↔ x = c.u ∧ oclass c.g c.u = oclass g x := by
  unfold Copy.eq
  rw [Bool.and_eq_true, decide_eq_true_iff, decide_eq_true_iff]
  exact ⟨fun h => ⟨h.2.symm, h.1⟩, fun h => ⟨h.2, h.1.symm⟩⟩

/-- **C108.** `add(copy)` without a relationship (and without a default) raises TypeError; with a relationship that already links the object it raises ValueError;
nothing changes. -/
theorem copy_add_refused (h : Views s0 A) (c : Copy) (d : Option Rel) :
    addCopy E O s0 me c none none = ⟨.error .typeError, s0⟩ ∧
    (∀ r, A.link me r c.u → addCopy E O s0 me c (some r) d = ⟨.error .valueError, s0⟩) := by
  refine ⟨rfl, fun r hl => ?_⟩
  have hin : (⟨me, .rel r, .cuds c.u⟩ : Triple) ∈ s0.g := (h.link me r c.u).2 hl
  unfold addCopy
  simp only [Option.or]
  rw [if_pos ⟨neighborRels_of hin, mem_targets.2 hin⟩]

/-- **C108.** `update(copy)` on an object that does not contain the object of the copy raises ValueError; nothing changes. -/
theorem copy_update_refused (hA : Refines s0 A) (hco : A.Coherent O.inv) (c : Copy) (hno : ¬ ∃ r, A.link me r c.u ∧ Active O r) :
    updateCopy E O s0 me c = ⟨.error .valueError, s0⟩ := by
  obtain ⟨l, hg, hfa⟩ := get_by_uids (O := O) hA hco me [c.u] (by simp) (some O.active)
  cases hfa with
  | cons h1 h2 =>
    cases h2
    rcases h1 with ⟨_, r, hl, hs⟩ | ⟨rfl, _⟩
    · exact absurd ⟨r, hl, hs.2.1 _ rfl⟩ hno
    · unfold updateCopy
      rw [hg]

end Osp.Copy
