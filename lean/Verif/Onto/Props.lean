import Verif.Onto.Lemmas
/-!
# Theorems about the entity hierarchy: C28, C29
-/
namespace Osp.Onto

variable {I : Type} [DecidableEq I]

/-! ### C28 -/

/-- The transitive super / sub entities of `n`: the computation ends after at most `#nodes + 1` rounds whatever the order in which the frontier set is
popped and whatever cycles the hierarchy has, lists nothing twice, and gives exactly `n` itself and the known, not blacklisted entities connected to `n` by a
chain of asserted triples. -/
theorem closure_exact (g : OG I) (inverse : Bool) (pick : List (Node I) → Nat) (n : Node I) (fuel : Nat) (hf : g.nodes.length + 2 ≤ fuel) :
    ∃ l, closure g inverse pick fuel n = some l ∧ l.Nodup ∧
      ∀ x, x ∈ l ↔ x = n ∨ (g.Reach inverse n x ∧ x ∉ g.blacklist ∧ g.known x = true) := by
  have hi : HInv g inverse n ⟨[n], [n], []⟩ := by
    refine ⟨fun x hx => hx, List.mem_cons_self, by simp, List.nodup_nil, ?_, ?_⟩
    · intro x
      simp only [List.not_mem_nil, false_iff, List.mem_cons, or_false]
      rintro ⟨a, b, _⟩
      exact b a
    · intro x hx
      simp only [List.mem_cons, List.not_mem_nil, or_false] at hx
      subst hx
      exact .refl
  obtain ⟨out, h1, h2, h3⟩ := hullLoop_spec (g := g) (inverse := inverse) (n := n) pick fuel _ hi
    (by intro v hv hnf; exact absurd hv hnf) (by simpa using hf)
  refine ⟨n :: out, by simp [closure, hull, h1], ?_, ?_⟩
  · rw [List.nodup_cons]
    exact ⟨fun h => ((h3 n).1 h).2.1 rfl, h2⟩
  · intro x
    rw [List.mem_cons, h3 x, yields_iff]
    constructor
    · rintro (h | ⟨a, _, c⟩)
      · exact Or.inl h
      · exact Or.inr ⟨a, c⟩
    · rintro (h | ⟨a, c⟩)
      · exact Or.inl h
      · by_cases e : x = n
        · exact Or.inl e
        · exact Or.inr ⟨a, e, c⟩

/-- The direct super / sub entities are exactly the known, not blacklisted ones one asserted triple away. -/
theorem direct_exact (g : OG I) (inverse : Bool) (n x : Node I) :
    x ∈ direct g inverse n ↔ g.Step inverse n x ∧ x ∉ g.blacklist ∧ g.known x = true := by
  unfold direct
  rw [List.mem_filter, ← mem_connected, ← yields_iff]
  simp [and_assoc]

/-- A cyclic class hierarchy with a blank node and an unknown intermediate class: c1 ⊑ c2 ⊑ c3 ⊑ c1, c3 ⊑ c4 ⊑ c5, c4 unknown, c1 ⊑ _:b. -/
def exOG : OG Nat :=
  { sub := [(.iri 1, .iri 2), (.iri 2, .iri 3), (.iri 3, .iri 1), (.iri 3, .iri 4), (.iri 4, .iri 5), (.iri 1, .bnode 0)]
    typed := [.iri 1, .iri 2, .iri 3, .iri 5]
    top := .iri 100, bottom := .iri 101, blacklist := [.iri 100, .iri 101]
    known := fun n => decide (n ∈ [Node.iri 1, .iri 2, .iri 3, .iri 5, .iri 100, .iri 101]) }

example : closure exOG false (fun _ => 0) 20 (.iri 1) = some [.iri 1, .iri 2, .iri 3, .iri 5] := by decide
example : closure exOG true (fun _ => 1) 20 (.iri 5) = some [.iri 5, .iri 3, .iri 2, .iri 1] := by decide
example : exOG.nodes.length + 2 ≤ 20 := by decide

/-! ### C29 -/

/-- Sub- and superclass checks are reflexive. -/
theorem subclass_refl (g : OG I) (pick : List (Node I) → Nat) (n : Node I) (fuel : Nat) (hf : g.nodes.length + 2 ≤ fuel) :
    isSubclassOf g pick fuel n n = some true ∧ isSuperclassOf g pick fuel n n = some true := by
  unfold isSubclassOf isSuperclassOf
  constructor
  · obtain ⟨l, h1, _, h3⟩ := closure_exact g true pick n fuel hf
    simp [h1, (h3 n).2 (Or.inl rfl)]
  · obtain ⟨l, h1, _, h3⟩ := closure_exact g false pick n fuel hf
    simp [h1, (h3 n).2 (Or.inl rfl)]

/-- The meaning of `a.is_subclass_of(b)`. -/
theorem isSubclassOf_iff (g : OG I) (pick : List (Node I) → Nat) (a b : Node I) (fuel : Nat) (hf : g.nodes.length + 2 ≤ fuel) :
    ∃ r, isSubclassOf g pick fuel a b = some r ∧
      (r = true ↔ a = b ∨ (g.Reach true b a ∧ a ∉ g.blacklist ∧ g.known a = true)) := by
  obtain ⟨l, h1, _, h3⟩ := closure_exact g true pick b fuel hf
  exact ⟨decide (a ∈ l), by simp [isSubclassOf, h1], by simp [h3 a]⟩

/-- The meaning of `b.is_superclass_of(a)`. -/
theorem isSuperclassOf_iff (g : OG I) (pick : List (Node I) → Nat) (a b : Node I) (fuel : Nat) (hf : g.nodes.length + 2 ≤ fuel) :
    ∃ r, isSuperclassOf g pick fuel b a = some r ∧
      (r = true ↔ b = a ∨ (g.Reach false a b ∧ b ∉ g.blacklist ∧ g.known b = true)) := by
  obtain ⟨l, h1, _, h3⟩ := closure_exact g false pick a fuel hf
  exact ⟨decide (b ∈ l), by simp [isSuperclassOf, h1], by simp [h3 b]⟩

/-- Subclass checks are transitive, whatever the order of the set operations in each of the three checks. -/
theorem subclass_trans (g : OG I) (p1 p2 p3 : List (Node I) → Nat) (a b c : Node I) (fuel : Nat) (hf : g.nodes.length + 2 ≤ fuel)
    (h1 : isSubclassOf g p1 fuel a b = some true) (h2 : isSubclassOf g p2 fuel b c = some true) :
    isSubclassOf g p3 fuel a c = some true := by
  obtain ⟨r1, e1, i1⟩ := isSubclassOf_iff g p1 a b fuel hf
  obtain ⟨r2, e2, i2⟩ := isSubclassOf_iff g p2 b c fuel hf
  obtain ⟨r3, e3, i3⟩ := isSubclassOf_iff g p3 a c fuel hf
  rw [e1] at h1
  rw [e2] at h2
  simp only [Option.some.injEq] at h1 h2
  rw [e3]
  simp only [Option.some.injEq]
  rw [i3]
  rcases i1.1 h1 with rfl | ⟨h, k⟩
  · exact i2.1 h2
  · rcases i2.1 h2 with rfl | ⟨h', _⟩
    · exact Or.inr ⟨h, k⟩
    · exact Or.inr ⟨h'.trans h, k⟩

/-- Same for superclass checks. -/
theorem superclass_trans (g : OG I) (p1 p2 p3 : List (Node I) → Nat) (a b c : Node I) (fuel : Nat) (hf : g.nodes.length + 2 ≤ fuel)
    (h1 : isSuperclassOf g p1 fuel a b = some true) (h2 : isSuperclassOf g p2 fuel b c = some true) :
    isSuperclassOf g p3 fuel a c = some true := by
  obtain ⟨r1, e1, i1⟩ := isSuperclassOf_iff g p1 b a fuel hf
  obtain ⟨r2, e2, i2⟩ := isSuperclassOf_iff g p2 c b fuel hf
  obtain ⟨r3, e3, i3⟩ := isSuperclassOf_iff g p3 c a fuel hf
  rw [e1] at h1
  rw [e2] at h2
  simp only [Option.some.injEq] at h1 h2
  rw [e3]
  simp only [Option.some.injEq]
  rw [i3]
  rcases i1.1 h1 with rfl | ⟨h, k⟩
  · exact i2.1 h2
  · rcases i2.1 h2 with rfl | ⟨h', _⟩
    · exact Or.inr ⟨h, k⟩
    · exact Or.inr ⟨h'.trans h, k⟩

/-- The hierarchy does not put anything above the top or below the bottom entity. -/
def OG.Proper (g : OG I) : Prop := ∀ t ∈ g.sub, t.1 ≠ g.top ∧ t.2 ≠ g.bottom

theorem reach_up_down {g : OG I} (hp : g.Proper) {a b : Node I} (ha : a.isBNode = false) (hab : a ≠ g.bottom) (hbt : b ≠ g.top)
    (h : g.Reach false a b) : g.Reach true b a := by
  have key : ∀ x, g.Reach false a x → x.isBNode = false ∧ x ≠ g.bottom ∧ (x ≠ g.top → g.Reach true x a) := by
    intro x hx
    induction hx with
    | refl => exact ⟨ha, hab, fun _ => .refl⟩
    | @tail y z _ hs ih =>
      obtain ⟨i1, i2, i3⟩ := ih
      obtain ⟨hz, hs⟩ := hs
      simp only [if_neg i2] at hs
      refine ⟨hz, (hp _ hs).2, ?_⟩
      intro hzt
      exact .head (show g.Step true z y from ⟨i1, by simpa [hzt] using hs⟩) (i3 (hp _ hs).1)
  exact (key b h).2.2 hbt

theorem reach_down_up {g : OG I} (hp : g.Proper) {a b : Node I} (hb : b.isBNode = false) (hab : a ≠ g.bottom) (hbt : b ≠ g.top)
    (h : g.Reach true b a) : g.Reach false a b := by
  have key : ∀ x, g.Reach true b x → x.isBNode = false ∧ x ≠ g.top ∧ (x ≠ g.bottom → g.Reach false x b) := by
    intro x hx
    induction hx with
    | refl => exact ⟨hb, hbt, fun _ => .refl⟩
    | @tail y z _ hs ih =>
      obtain ⟨i1, i2, i3⟩ := ih
      obtain ⟨hz, hs⟩ := hs
      simp only [if_neg i2] at hs
      refine ⟨hz, (hp _ hs).1, ?_⟩
      intro hzt
      exact .head (show g.Step false z y from ⟨i1, by simpa [hzt] using hs⟩) (i3 (hp _ hs).2)
  exact (key a h).2.2 hab

/-- Missing to the full claim: the built-in top and bottom, for which it is false, see `dual_fails_at_top`. `a.is_subclass_of(b)` and
`b.is_superclass_of(a)` agree for all known entities other than the built-in top and bottom (and the rest of the
blacklist). -/
theorem subclass_superclass_dual_partial (g : OG I) (hp : g.Proper) (p1 p2 : List (Node I) → Nat) (a b : Node I) (fuel : Nat) (hf : g.nodes.length + 2 ≤ fuel)
    (ha : g.known a = true) (hb : g.known b = true) (hai : a.isBNode = false) (hbi : b.isBNode = false)
    (habl : a ∉ g.blacklist) (hbbl : b ∉ g.blacklist) (hab : a ≠ g.bottom) (hbt : b ≠ g.top) :
    isSubclassOf g p1 fuel a b = isSuperclassOf g p2 fuel b a := by
  obtain ⟨r1, e1, i1⟩ := isSubclassOf_iff g p1 a b fuel hf
  obtain ⟨r2, e2, i2⟩ := isSuperclassOf_iff g p2 a b fuel hf
  rw [e1, e2]
  congr 1
  rw [Bool.eq_iff_iff, i1, i2]
  constructor
  · rintro (h | ⟨h, _⟩)
    · exact Or.inl h.symm
    · exact Or.inr ⟨reach_down_up hp hbi hab hbt h, hbbl, hb⟩
  · rintro (h | ⟨h, _⟩)
    · exact Or.inl h.symm
    · exact Or.inr ⟨reach_up_down hp hai hab hbt h, habl, ha⟩

/-- Deviation: with the top entity the two checks disagree: every class is a subclass of owl:Thing, but owl:Thing is never a superclass. -/
theorem dual_fails_at_top : isSubclassOf exOG (fun _ => 0) 20 (.iri 1) (.iri 100) = some true ∧
    isSuperclassOf exOG (fun _ => 0) 20 (.iri 100) (.iri 1) = some false := by decide

/-- Deviation: for attributes the special rule uses owl:DataProperty, which no ontology contains, so `typed` is empty and owl:topDataProperty has no sub
attributes but itself unless asserted one by one. -/
theorem top_attribute_no_subs (g : OG I) (ht : g.typed = []) (pick : List (Node I) → Nat) (fuel : Nat) (hf : g.nodes.length + 2 ≤ fuel) (l : List (Node I))
    (h : closure g true pick fuel g.top = some l) : ∀ x, x ∈ l ↔ x = g.top := by
  obtain ⟨l', h1, _, h3⟩ := closure_exact g true pick g.top fuel hf
  rw [h1] at h
  cases h
  intro x
  rw [h3 x]
  constructor
  · rintro (e | ⟨hr, _⟩)
    · exact e
    · rcases Relation.ReflTransGen.cases_head hr with e | ⟨y, hy, _⟩
      · exact e.symm
      · have := hy.2
        simp [ht] at this
  · exact Or.inl

example : exOG.Proper := by unfold OG.Proper; decide
example : isSubclassOf exOG (fun _ => 3) 20 (.iri 2) (.iri 5) = some true := by decide

end Osp.Onto
