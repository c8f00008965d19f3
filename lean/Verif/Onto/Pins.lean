import Verif.Onto.AttrProps
/-!
# Further exact statements: argument names, obligatory attributes (C33)
-/
namespace Osp.Onto


variable {I : Type} [DecidableEq I]

variable {A V : Type}

/-- The name names the attribute: it is its argument name, or that in lower case. Specification. -/
def Names (name : Name) (a : Attr A) : Prop := name = a.argname ∨ name = a.argname.lower

/-- **C33.** The attribute with a given argument name is the first one, in the order of the attributes of the class, that the name names; there is none exactly if the name
names no attribute. -/
theorem attributeByArgname_exact (attrs : List (Attr A)) (name : Name) :
    (∀ a, attributeByArgname attrs name = some a ↔ ∃ l r, attrs = l ++ a :: r ∧ Names name a ∧ ∀ b ∈ l, ¬ Names name b) ∧
    (attributeByArgname attrs name = none ↔ ∀ a ∈ attrs, ¬ Names name a) := by
  have hn : ∀ a : Attr A, (a.argname == name || a.argname.lower == name) = true ↔ Names name a := fun a => by
    rw [Bool.or_eq_true, beq_iff_eq, beq_iff_eq]
    exact or_congr eq_comm eq_comm
  constructor
  · intro a
    unfold attributeByArgname
    rw [List.find?_eq_some_iff_append]
    constructor
    · rintro ⟨h, l, r, rfl, h2⟩
      refine ⟨l, r, rfl, (hn a).1 h, fun b hb hbn => ?_⟩
      have := h2 b hb
      rw [(hn b).2 hbn] at this
      cases this
    · rintro ⟨l, r, rfl, h, h2⟩
      refine ⟨(hn a).2 h, l, r, rfl, fun b hb => ?_⟩
      rw [Bool.not_eq_true', ← Bool.not_eq_true]
      exact fun h => h2 b hb ((hn b).1 h)
  · unfold attributeByArgname
    rw [List.find?_eq_none]
    exact ⟨fun h a ha hna => h a ha ((hn a).2 hna), fun h a ha hna => h a ha ((hn a).1 hna)⟩

/-- A class with attributes `age` and `Age`: each is found by its own name, though `age` is also `Age` in lower case; in the other order `Age` is found for both names. -/
theorem ex_argname :
    let a : Attr Nat := ⟨1, "age".toList⟩
    let b : Attr Nat := ⟨2, "Age".toList⟩
    (attributeByArgname [a, b] "age".toList, attributeByArgname [a, b] "Age".toList, attributeByArgname [b, a] "age".toList, attributeByArgname [a, b] "AGE".toList) =
      (some a, some b, some b, none) := by decide

/-- **C33, deviation.** An attribute of a restriction is obligatory exactly if it has no default, whatever the restriction says. -/
theorem restriction_obligatory_iff (b : Bool) (d : Option V) : restrictionObligatory b d = true ↔ d = none := by
  cases d <;> cases b <;> simp [restrictionObligatory]

/-- **C28.** Blank nodes (the anonymous restrictions and unions of OWL) are never among the direct superclasses or subclasses. -/
theorem direct_no_blank (g : OG I) (inverse : Bool) (n : Node I) (b : Nat) : Node.bnode b ∉ direct g inverse n := by
  simp [direct, Node.isBNode]

theorem expand_no_blank (g : OG I) (b : Nat) (os : List (Node I)) (h : Hull I) (h1 : Node.bnode b ∉ h.out) : Node.bnode b ∉ (Hull.expand g os h).out := by
  induction os generalizing h with
  | nil => exact h1
  | cons o os ih =>
    unfold Hull.expand
    split
    · exact ih h h1
    · split
      · exact ih h h1
      · rename_i h2
        apply ih
        show Node.bnode b ∉ if g.yields o then h.out ++ [o] else h.out
        split
        · simp only [List.mem_append, List.mem_singleton, not_or]
          refine ⟨h1, ?_⟩
          rintro rfl
          exact h2 rfl
        · exact h1

theorem hullLoop_no_blank (g : OG I) (inverse : Bool) (pick : List (Node I) → Nat) (b : Nat) (fuel : Nat) (h : Hull I) (h1 : Node.bnode b ∉ h.out) (l : List (Node I))
    (hl : hullLoop g inverse pick fuel h = some l) : Node.bnode b ∉ l := by
  induction fuel generalizing h with
  | zero => cases hl
  | succ fuel ih =>
    unfold hullLoop at hl
    split at hl
    · cases hl; exact h1
    · exact ih _ (expand_no_blank g b _ _ (by exact h1)) hl

/-- **C28.** Nor are they among all superclasses or subclasses of an entity. -/
theorem closure_no_blank (g : OG I) (inverse : Bool) (pick : List (Node I) → Nat) (fuel : Nat) (n : I) (l : List (Node I)) (h : closure g inverse pick fuel (.iri n) = some l) (b : Nat) : Node.bnode b ∉ l := by
  unfold closure at h
  cases hh : hull g inverse pick fuel (.iri n) with
  | none => rw [hh] at h; cases h
  | some l' =>
    rw [hh] at h
    cases h
    show Node.bnode b ∉ Node.iri n :: l'
    rw [List.mem_cons, not_or]
    exact ⟨by simp, hullLoop_no_blank g inverse pick b fuel _ (by simp) l' hh⟩

/-- A class below an anonymous restriction that is itself below a class: the restriction hides that class too. -/
theorem ex_no_blank :
    let g : OG Nat := { sub := [(.iri 1, .bnode 9), (.bnode 9, .iri 2), (.iri 1, .iri 3)], typed := [], top := .iri 100, bottom := .iri 101, blacklist := [], known := fun _ => true }
    closure g false (fun _ => 0) 10 (.iri 1) = some [.iri 1, .iri 3] ∧ direct g false (.iri 1) = [.iri 3] := by decide

end Osp.Onto
