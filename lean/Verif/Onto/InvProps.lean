import Verif.Onto.InvLemmas
/-!
# Theorems about lazily created inverse relationships: C30, C31
-/
namespace Osp.Onto

variable {I : Type} [DecidableEq I]

/-- Any history of `inverse` queries on relationships known at the time. -/
inductive Queries (mk : (Node I) → (Node I)) (fuel : Nat) : (RG I) → (RG I) → Prop
  | nil (g) : Queries mk fuel g g
  | snoc {g g1 g2 : RG I} {r i : Node I} : Queries mk fuel g g1 → g1.og.known r = true → RG.inverse mk fuel g1 r = some (i, g2) → Queries mk fuel g g2

/-- The fuel bound: more than the number of known relationships (listed by `U`). -/
theorem queries_ok {mk : (Node I) → (Node I)} (hinj : ∀ x y, mk x = mk y → x = y) (hmk : ∀ x, (mk x).isBNode = false) {U : List (Node I)} {fuel : Nat} {g g' : RG I}
    (hw : g.WF mk) (hU : ∀ x, g.og.known x = true → x ∈ U) (hf : U.length < fuel) (h : Queries mk fuel g g') :
    g'.WF mk ∧ g.Extends g' ∧ Covers U g' := by
  induction h with
  | nil => exact ⟨hw, extends_refl _, fun x hx => Or.inl (hU x hx)⟩
  | @snoc g1 g2 r i _ hk he ih =>
    obtain ⟨a, b, c⟩ := ih
    obtain ⟨i', g', e, ok⟩ := inverse_spec hinj hmk fuel g1 r a hk c (Nat.lt_of_le_of_lt (List.length_filter_le _ _) hf)
    rw [he] at e
    cases e
    exact ⟨ok.wf, extends_trans b ok.ext, ok.covers⟩

/-- C30: in any history of queries, asking for the inverse of a known relationship succeeds, and from then on, after any further queries, it keeps the same
inverse, whose inverse is the relationship itself, and neither query changes the ontology any more. -/
theorem inverse_involution {mk : (Node I) → (Node I)} (hinj : ∀ x y, mk x = mk y → x = y) (hmk : ∀ x, (mk x).isBNode = false) {U : List (Node I)} {fuel : Nat}
    {g g1 : RG I} (hw : g.WF mk) (hU : ∀ x, g.og.known x = true → x ∈ U) (hf : U.length < fuel) (h1 : Queries mk fuel g g1)
    {r : Node I} (hr : g1.og.known r = true) :
    ∃ i g2, RG.inverse mk fuel g1 r = some (i, g2) ∧ g2.og.known i = true ∧
      ∀ g3, Queries mk fuel g2 g3 → RG.inverse mk fuel g3 r = some (i, g3) ∧ RG.inverse mk fuel g3 i = some (r, g3) := by
  obtain ⟨a, b, c⟩ := queries_ok hinj hmk hw hU hf h1
  have hle : ∀ g, openCount U g < fuel := fun g => Nat.lt_of_le_of_lt (List.length_filter_le _ _) hf
  obtain ⟨i, g2, e, ok⟩ := inverse_spec hinj hmk fuel g1 r a hr c (hle g1)
  refine ⟨i, g2, e, ok.wf.known r i ok.partner, ?_⟩
  intro g3 h3
  have key : ∀ g3, Queries mk fuel g2 g3 → g3.WF mk ∧ g3.Partner r i ∧ Covers U g3 := by
    intro g3 h3
    induction h3 with
    | nil => exact ⟨ok.wf, ok.partner, ok.covers⟩
    | @snoc g4 g5 r' i' _ hk he ih =>
      obtain ⟨a', b', c'⟩ := ih
      obtain ⟨_, _, e', ok'⟩ := inverse_spec hinj hmk fuel g4 r' a' hk c' (hle g4)
      rw [he] at e'
      cases e'
      exact ⟨ok'.wf, ok'.ext.partner _ _ b', ok'.covers⟩
  obtain ⟨a3, b3, _⟩ := key g3 h3
  have find : ∀ x y, g3.Partner x y → RG.inverse mk fuel g3 x = some (y, g3) := by
    intro x y hxy
    have : g3.lookup x = some y := by
      cases hl : g3.lookup x with
      | none => exact absurd hxy (lookup_none hl y)
      | some z => rw [a3.one x z y (lookup_some hxy.2.1 hl) hxy]
    cases fuel with
    | zero => omega
    | succ n => unfold RG.inverse; rw [this]
  exact ⟨find r i b3, find i r (partner_symm b3)⟩

/-- C30: creating inverses changes nothing else. In any history, every stated inverse stays, and the super relationships of every relationship that existed
before are the same as before. -/
theorem inverse_conservative {mk : (Node I) → (Node I)} (hinj : ∀ x y, mk x = mk y → x = y) (hmk : ∀ x, (mk x).isBNode = false) {U : List (Node I)} {fuel : Nat}
    {g g' : RG I} (hw : g.WF mk) (hp : g.og.Proper) (hU : ∀ x, g.og.known x = true → x ∈ U) (hf : U.length < fuel) (h : Queries mk fuel g g') :
    (∀ x y, g.Partner x y → g'.Partner x y) ∧
    (∀ x y, g'.Partner x y → g.Mentions x → g.Mentions y → g.Partner x y) ∧
    ∀ a b, g.Mentions a → a ≠ g.og.bottom → (g'.og.Reach false a b ↔ g.og.Reach false a b) := by
  obtain ⟨_, e, _⟩ := queries_ok hinj hmk hw hU hf h
  refine ⟨e.partner, ?_, ?_⟩
  · intro x y hxy hx hy
    refine ⟨?_, hxy.2⟩
    rcases hxy.1 with h1 | h1
    · rcases e.newInv _ h1 with h2 | ⟨_, h2⟩
      · exact Or.inl h2
      · exact absurd hy h2
    · rcases e.newInv _ h1 with h2 | ⟨_, h2⟩
      · exact Or.inr h2
      · exact absurd hx h2
  · intro a b ha hab
    have key : ∀ x, g'.og.Reach false a x → g.og.Reach false a x ∧ g.Mentions x ∧ x ≠ g.og.bottom := by
      intro x hx
      induction hx with
      | refl => exact ⟨.refl, ha, hab⟩
      | @tail y z _ hs ih =>
        obtain ⟨i1, i2, i3⟩ := ih
        obtain ⟨hz, hs⟩ := hs
        change if y = g'.og.bottom then z ∈ g'.og.typed else (y, z) ∈ g'.og.sub at hs
        rw [e.bottom, if_neg i3] at hs
        have hs' : (y, z) ∈ g.og.sub := (e.newSub _ hs).resolve_right (fun k => k i2)
        refine ⟨i1.tail ⟨hz, ?_⟩, Or.inr ?_, (hp _ hs').2⟩
        · show if y = g.og.bottom then z ∈ g.og.typed else (y, z) ∈ g.og.sub
          rw [if_neg i3]; exact hs'
        · unfold OG.nodes
          simp only [List.mem_append, List.mem_map]
          exact Or.inl (Or.inr ⟨_, hs', rfl⟩)
    refine ⟨fun hx => (key b hx).1, ?_⟩
    intro hx
    induction hx with
    | refl => exact .refl
    | @tail x y _ hxy ih =>
    refine ih.tail ?_
    refine ⟨hxy.1, ?_⟩
    have := hxy.2
    change if x = g.og.bottom then y ∈ g.og.typed else (x, y) ∈ g.og.sub at this
    show if x = g'.og.bottom then y ∈ g'.og.typed else (x, y) ∈ g'.og.sub
    rw [e.bottom]
    by_cases k : x = g.og.bottom
    · rw [if_pos k] at this ⊢; exact e.typed _ this
    · rw [if_neg k] at this ⊢; exact e.sub _ this

/-- C31: when a query creates an inverse, the new relationship is stated to be a sub relationship of the inverse of every direct super relationship, whatever
inverses existed before. -/
theorem created_inverse_below {mk : (Node I) → (Node I)} (hinj : ∀ x y, mk x = mk y → x = y) (hmk : ∀ x, (mk x).isBNode = false) {U : List (Node I)} {fuel : Nat}
    {g g1 : RG I} (hw : g.WF mk) (hU : ∀ x, g.og.known x = true → x ∈ U) (hf : U.length < fuel) (h1 : Queries mk fuel g g1)
    {r i : Node I} {g2 : RG I} (hr : g1.og.known r = true) (hnew : ∀ y, ¬ g1.Partner r y) (h : RG.inverse mk fuel g1 r = some (i, g2)) :
    i = mk r ∧ ¬ g1.Mentions i ∧ ∀ s, s ∈ direct g1.og false r → ∃ si, RG.inverse mk fuel g2 s = some (si, g2) ∧ (i, si) ∈ g2.og.sub := by
  obtain ⟨a, b, c⟩ := queries_ok hinj hmk hw hU hf h1
  obtain ⟨i', g', e, ok⟩ := inverse_spec hinj hmk fuel g1 r a hr c (Nat.lt_of_le_of_lt (List.length_filter_le _ _) hf)
  rw [h] at e
  cases e
  have hi : i = mk r := by
    cases fuel with
    | zero => omega
    | succ n =>
      unfold RG.inverse at h
      cases hl : g1.lookup r with
      | some z => exact absurd (lookup_some (a.iri r hr) hl) (hnew z)
      | none =>
        rw [hl] at h
        dsimp only at h
        split at h
        · cases h
        · cases h; rfl
  refine ⟨hi, ?_, ?_⟩
  · intro hm
    rw [hi] at hm
    exact hnew _ (partner_symm (a.ment r hm))
  · intro s hs
    obtain ⟨si, k1, k2⟩ := ok.below hnew s hs
    refine ⟨si, ?_, k2⟩
    have : g2.lookup s = some si := by
      cases hl : g2.lookup s with
      | none => exact absurd k1 (lookup_none hl si)
      | some z => rw [ok.wf.one s z si (lookup_some k1.2.1 hl) k1]
    cases fuel with
    | zero => omega
    | succ n => unfold RG.inverse; rw [this]

/-! ### a concrete case: r2 ⊑ r1 ⊑ r0, r0 its own inverse (as cuba:relationship), r3 and r4 inverse; the names r + 10 are free -/

def exMk : (Node Nat) → (Node Nat)
  | .iri n => .iri (n + 10 * (n + 1))
  | .bnode n => .iri (n + 10 * (n + 1) + 1)

def exRG : RG Nat :=
  { og := { sub := [(.iri 2, .iri 1), (.iri 1, .iri 0)], typed := [.iri 0, .iri 1, .iri 2, .iri 3, .iri 4]
            top := .iri 8, bottom := .iri 9, blacklist := [.iri 8, .iri 9], known := fun n => decide (n ∈ [Node.iri 0, .iri 1, .iri 2, .iri 3, .iri 4]) }
    inv := [(.iri 0, .iri 0), (.iri 3, .iri 4)] }

theorem exMk_inj : ∀ x y, exMk x = exMk y → x = y := by
  intro x y h
  cases x <;> cases y <;> simp only [exMk, Node.iri.injEq] at h
  · congr 1; omega
  · omega
  · omega
  · congr 1; omega

theorem exMk_iri : ∀ x, (exMk x).isBNode = false := by
  intro x; cases x <;> rfl

theorem exMk_ge (x : Node Nat) : ∃ n, exMk x = .iri n ∧ 10 ≤ n := by
  cases x with
  | iri n => exact ⟨_, rfl, by omega⟩
  | bnode n => exact ⟨_, rfl, by omega⟩

theorem exRG_wf : exRG.WF exMk := by
  have hP : ∀ x y, exRG.Partner x y → (x, y) ∈ [(Node.iri 0, Node.iri 0), (.iri 3, .iri 4), (.iri 4, .iri 3)] := by
    rintro x y ⟨h | h, _⟩ <;> simp [exRG] at h ⊢ <;> rcases h with ⟨rfl, rfl⟩ | ⟨rfl, rfl⟩ <;> simp
  refine ⟨?_, ?_, ?_, ?_, ?_⟩
  · intro x y z h1 h2
    have h1 := hP _ _ h1
    have h2 := hP _ _ h2
    simp at h1 h2
    rcases h1 with ⟨rfl, rfl⟩ | ⟨rfl, rfl⟩ | ⟨rfl, rfl⟩ <;> simp_all
  · intro x y h
    obtain ⟨n, e, hn⟩ := exMk_ge x
    rw [e] at h
    have h := hP _ _ h
    simp at h
    omega
  · intro x h
    obtain ⟨n, e, hn⟩ := exMk_ge x
    rw [e] at h
    exfalso
    rcases h with h | h
    · simp [exRG] at h; omega
    · simp [exRG, OG.nodes] at h; omega
  · intro x h
    simp [exRG] at h
    rcases h with rfl | rfl | rfl | rfl | rfl <;> rfl
  · intro x y h
    have h := hP _ _ h
    simp at h
    rcases h with ⟨rfl, rfl⟩ | ⟨rfl, rfl⟩ | ⟨rfl, rfl⟩ <;> rfl

example : (RG.inverse exMk 6 exRG (.iri 2)).map (fun p => (p.1, p.2.og.sub, p.2.inv)) =
    some (.iri 32, [(.iri 2, .iri 1), (.iri 1, .iri 0), (.iri 21, .iri 0), (.iri 32, .iri 21)],
      [(.iri 0, .iri 0), (.iri 3, .iri 4), (.iri 2, .iri 32), (.iri 1, .iri 21)]) := by decide

/-- The one-inverse condition is necessary: if two relationships state the same inverse, the inverse of the inverse is another relationship. -/
theorem two_inverses_break_involution :
    let g : RG Nat := { exRG with inv := [(.iri 1, .iri 3), (.iri 2, .iri 3)] }
    (RG.inverse exMk 6 g (.iri 2)).map (·.1) = some (.iri 3) ∧ (RG.inverse exMk 6 g (.iri 3)).map (·.1) = some (.iri 1) := by decide

/-- Distinct generated names are necessary: the name is made from the label, so two relationships of a namespace with the same label share their inverse, and the
inverse of the inverse of the second is the first. -/
theorem equal_labels_break_involution :
    let mk : (Node Nat) → (Node Nat) := fun _ => .iri 50
    let g : RG Nat := { exRG with inv := [(.iri 0, .iri 0)] }
    ∃ g1 g2 : (RG Nat), RG.inverse mk 6 g (.iri 3) = some (.iri 50, g1) ∧ RG.inverse mk 6 g1 (.iri 4) = some (.iri 50, g2) ∧
      (RG.inverse mk 6 g2 (.iri 50)).map (·.1) = some (.iri 3) :=
  ⟨_, _, rfl, rfl, by decide⟩

end Osp.Onto
