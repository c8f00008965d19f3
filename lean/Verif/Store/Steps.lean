import Verif.Store.Lemmas
/-! One iteration of `_recursive_store` preserves the invariant. -/
namespace Osp.Store
open Osp.Cuds

variable {E : Order} {O : Onto}

/-- Links from an object that is not copied to one that is. -/
def LinkIn (O : Onto) (A B : Abs) (a : Uid) (q : Rel) (b : Uid) : Prop :=
  (A.link a q b ∧ (Active O (O.inv q) → B.link b (O.inv q) a)) ∨ (B.link b (O.inv q) a ∧ ¬ Active O (O.inv q) ∧ A.cls a ≠ none)

/-- A single parent that is dropped is rich enough: it contains the object. -/
theorem rich_of_single {A B : Abs} {C : Uid → Prop} {a b : Uid} {q : Rel} (h : Single A a q) (hl : A.link a q b) (hC : ¬ C b) (hB : ¬ B.link a q b) :
    Rich O A B C a q := by
  refine ⟨b, hl, hC, hB, [O.inv q], by simp, by simp, ?_⟩
  intro ys hn hy
  match ys with
  | [] => simp
  | [_] => simp
  | x :: y :: l =>
    have := h x y (hy x (by simp)) (hy y (by simp))
    subst this
    simp at hn

/-- The state of the target session when the objects `P` have been copied. -/
structure Inv (O : Onto) (s0 : Sess) (A B : Abs) (C : Uid → Prop) (P : List Uid) (s : Sess) : Prop where
  sub : ∀ u ∈ P, C u
  nodup : s.g.Nodup
  reg : ∀ u, u ∈ s.reg ↔ A.cls u ≠ none ∨ u ∈ P
  root : s.root = s0.root
  kinds : ∀ t ∈ s.g, (∃ c, t.p = .type ∧ t.o = .cls c) ∨ (∃ a v, t.p = .attr a ∧ t.o = .val v) ∨ (∃ r x, t.p = .rel r ∧ t.o = .cuds x)
  typeP : ∀ u c, u ∈ P → ((⟨u, .type, .cls c⟩ : Triple) ∈ s.g ↔ B.cls u = some c)
  typeO : ∀ u c, u ∉ P → A.cls u = some c → (⟨u, .type, .cls c⟩ : Triple) ∈ s.g
  typeN : ∀ u c, u ∉ P → (⟨u, .type, .cls c⟩ : Triple) ∈ s.g → (⟨u, .type, .cls c⟩ : Triple) ∈ s0.g ∨ B.cls u = some c
  attrP : ∀ u a v, u ∈ P → ((⟨u, .attr a, .val v⟩ : Triple) ∈ s.g ↔ B.attr u a = some v)
  attrO : ∀ u a v, u ∉ P → ((⟨u, .attr a, .val v⟩ : Triple) ∈ s.g ↔ A.attr u a = some v)
  link00 : ∀ a q b, a ∉ P → b ∉ P → ((⟨a, .rel q, .cuds b⟩ : Triple) ∈ s.g ↔ A.link a q b)
  link01 : ∀ a q b, a ∉ P → b ∈ P → ((⟨a, .rel q, .cuds b⟩ : Triple) ∈ s.g ↔ LinkIn O A B a q b)
  link1B : ∀ a q b, a ∈ P → B.link a q b → (⟨a, .rel q, .cuds b⟩ : Triple) ∈ s.g
  link1U : ∀ a q b, a ∈ P → (⟨a, .rel q, .cuds b⟩ : Triple) ∈ s.g →
    B.link a q b ∨ (A.link a q b ∧ ¬ Active O q ∧ (b ∈ P → ¬ Active O (O.inv q)))
  link1P : ∀ a q b, a ∈ P → ¬ C b → A.link a q b → ¬ Active O q → Active O (O.inv q) → Single A a q ∨ Rich O A B C a q → (⟨a, .rel q, .cuds b⟩ : Triple) ∈ s.g
  link1L : ∀ a q most, a ∈ P → Poor O A B C a q most →
    ∃ kept : List Uid, kept.length ≤ most ∧ ∀ b, (⟨a, .rel q, .cuds b⟩ : Triple) ∈ s.g → B.link a q b ∨ b ∈ kept

variable {s0 src : Sess} {A B : Abs} {me n : Uid}

theorem Setup.copied_cls (S : Setup E O s0 src A B me n) {u : Uid} (h : Copied O B me n u) : B.cls u ≠ none := by
  cases h with
  | start => exact S.n_mem
  | step _ hl => exact S.cohB.dst _ _ _ hl

theorem Setup.copied_ne (S : Setup E O s0 src A B me n) {u : Uid} (h : Copied O B me n u) : u ≠ 0 := by
  rintro rfl
  exact S.copied_cls h S.nil_uid

theorem inv_init (S : Setup E O s0 src A B me n) : Inv O s0 A B (Copied O B me n) [] s0 where
  sub := by simp
  nodup := S.viewA.nodup
  reg u := by simp [S.viewA.reg]
  root := rfl
  kinds := S.viewA.kinds
  typeP := by simp
  typeO u c _ h := (S.viewA.type u c c h).2 rfl
  typeN u c _ h := Or.inl h
  attrP := by simp
  attrO u a v _ := S.viewA.attr u a v
  link00 a q b _ _ := S.viewA.link a q b
  link01 := by simp
  link1B := by simp
  link1U := by simp
  link1P := by simp
  link1L := by simp

/-- The link triples of the object to be copied next, before it is replaced. -/
theorem old_link (S : Setup E O s0 src A B me n) {P : List Uid} {s : Sess} (I : Inv O s0 A B (Copied O B me n) P s) {u : Uid} (hu : u ∉ P)
    (hC : Copied O B me n u) {q : Rel} {x : Uid} (h : (⟨u, .rel q, .cuds x⟩ : Triple) ∈ s.g) : A.cls u ≠ none ∧ x ∈ s.reg ∧ x ≠ u := by
  by_cases hx : x ∈ P
  · refine ⟨?_, (I.reg x).2 (Or.inr hx), fun e => hu (e ▸ hx)⟩
    rcases (I.link01 u q x hu hx).1 h with h | h
    · exact S.cohA.src _ _ _ h.1
    · exact h.2.2
  · have h := (I.link00 u q x hu hx).1 h
    refine ⟨S.cohA.src _ _ _ h, (I.reg x).2 (Or.inl (S.cohA.dst _ _ _ h)), ?_⟩
    rintro rfl
    exact S.loop_free _ _ hC h

/-- `create_from_cuds_object` followed by `_fix_neighbors`. -/
theorem fixed_spec (S : Setup E O s0 src A B me n) {P : List Uid} {s : Sess} (I : Inv O s0 A B (Copied O B me n) P s) {u : Uid} (hu : u ∉ P)
    (hC : Copied O B me n u) {c : Cls} (hc : B.cls u = some c) (m : Missing) :
    ∃ s1 g2 m2, createFrom E src s u = ⟨.ok (), s1⟩ ∧
      fixNeighbors E O s1.reg u (if u ∈ s.reg then some (cloneGraph s.g u) else none) s1.g m = .ok (g2, m2) ∧
      (∀ v, v ∈ s1.reg ↔ v = u ∨ v ∈ s.reg) ∧ s1.root = s.root ∧ g2.Nodup ∧
      (∀ v c', (⟨v, .type, .cls c'⟩ : Triple) ∈ g2 ↔ ((⟨v, .type, .cls c'⟩ : Triple) ∈ s.g ∧ v ≠ u) ∨ (v = u ∧ c' = c) ∨
        (∃ r, B.link u r v ∧ B.cls v = some c')) ∧
      (∀ v a w, (⟨v, .attr a, .val w⟩ : Triple) ∈ g2 ↔ ((⟨v, .attr a, .val w⟩ : Triple) ∈ s.g ∧ v ≠ u) ∨ (v = u ∧ B.attr u a = some w)) ∧
      (∀ t ∈ g2, (∃ c, t.p = .type ∧ t.o = .cls c) ∨ (∃ a v, t.p = .attr a ∧ t.o = .val v) ∨ (∃ r x, t.p = .rel r ∧ t.o = .cuds x)) ∧
      (∀ a q b, a ≠ u → b ≠ u → ((⟨a, .rel q, .cuds b⟩ : Triple) ∈ g2 ↔ (⟨a, .rel q, .cuds b⟩ : Triple) ∈ s.g)) ∧
      (∀ a q, a ≠ u → ((⟨a, .rel q, .cuds u⟩ : Triple) ∈ g2 ↔
        ((⟨a, .rel q, .cuds u⟩ : Triple) ∈ s.g ∨ (B.link u (O.inv q) a ∧ (⟨u, .rel (O.inv q), .cuds a⟩ : Triple) ∉ s.g ∧ ¬ Active O (O.inv q) ∧ a ∈ s1.reg)) ∧
        ¬ (Active O (O.inv q) ∧ (⟨u, .rel (O.inv q), .cuds a⟩ : Triple) ∈ s.g ∧ ¬ B.link u (O.inv q) a))) ∧
      (∀ q b, B.link u q b → (⟨u, .rel q, .cuds b⟩ : Triple) ∈ g2) ∧
      (∀ q b, (⟨u, .rel q, .cuds b⟩ : Triple) ∈ g2 → B.link u q b ∨ ((⟨u, .rel q, .cuds b⟩ : Triple) ∈ s.g ∧ ¬ Active O q)) ∧
      (∀ q x, (⟨u, .rel q, .cuds x⟩ : Triple) ∈ s.g → ¬ Active O q → ¬ B.link u q x → ∀ kinds : List Rel, kinds.Nodup →
        (∀ p ∈ kinds, (p = O.inv q ∧ (⟨x, .rel p, .cuds u⟩ : Triple) ∈ s.g) ∨ ∃ y, y ≠ u ∧ (⟨x, .rel p, .cuds y⟩ : Triple) ∈ s.g) →
        (∀ ys : List Uid, ys.Nodup → (∀ y ∈ ys, (⟨u, .rel q, .cuds y⟩ : Triple) ∈ s.g) → ys.length ≤ kinds.length) →
        ∀ b, (⟨u, .rel q, .cuds b⟩ : Triple) ∈ s.g → (⟨u, .rel q, .cuds b⟩ : Triple) ∈ g2) ∧
      (∀ q most, (∀ x, (⟨u, .rel q, .cuds x⟩ : Triple) ∈ s.g → ¬ B.link u q x → ∀ kinds : List Rel, kinds.Nodup →
          (∀ p ∈ kinds, ∃ y, (⟨x, .rel p, .cuds y⟩ : Triple) ∈ s.g ∨ (y = u ∧ B.link u (O.inv p) x ∧ ¬ Active O (O.inv p))) → kinds.length ≤ most) →
        ∃ kept : List Uid, kept.length ≤ most ∧ ∀ b, (⟨u, .rel q, .cuds b⟩ : Triple) ∈ g2 → B.link u q b ∨ b ∈ kept) ∧
      (∀ e, e ∈ m2 ↔ e ∈ m ∨ ∃ x r, B.link u r x ∧ (⟨u, .rel r, .cuds x⟩ : Triple) ∉ s.g ∧ ¬ Active O r ∧ x ∉ s1.reg ∧ e = (x, u, r)) := by
  obtain ⟨s1, hcf, n1, reg1, root1, _, mem1⟩ := createFrom_spec (E := E) S.order S.viewB (s := s) hc (S.copied_ne hC) I.nodup (by
    intro hreg t ht hts
    obtain ⟨v, p, o⟩ := t
    simp only at hts
    subst hts
    have hA : A.cls v = none := by
      by_contra hne
      exact hreg ((I.reg v).2 (Or.inl hne))
    rcases I.kinds _ ht with ⟨c', h1, h2⟩ | ⟨a, w, h1, h2⟩ | ⟨r, x, h1, h2⟩ <;> simp only at h1 h2 <;> subst h1 h2
    · rcases I.typeN v c' hu ht with h | h
      · rw [Option.some.inj ((S.stale v c' hA h hC).symm.trans hc)]
      · rw [Option.some.inj (h.symm.trans hc)]
    · have := (I.attrO v a w hu).1 ht
      exact absurd hA (S.viewA.owned v a (by simp [this]))
    · exact absurd hA (old_link S I hu hC ht).1)
  -- the old version
  have hold : ∃ old : Option Graph, (if u ∈ s.reg then some (cloneGraph s.g u) else none) = old ∧
      (old.getD []).Nodup ∧ (∀ r x, (⟨u, .rel r, .cuds x⟩ : Triple) ∈ old.getD [] ↔ (⟨u, .rel r, .cuds x⟩ : Triple) ∈ s.g) ∧
      (∀ t ∈ old.getD [], t ∈ s.g) ∧ (∀ r x, VLink (old.map fun h => (⟨h, u⟩ : View)) r x ↔ (⟨u, .rel r, .cuds x⟩ : Triple) ∈ s.g) := by
    refine ⟨_, rfl, ?_⟩
    split
    · refine ⟨I.nodup.filter _, fun r x => link_cloneGraph, fun t ht => cloneGraph_sub ht, fun r x => ?_⟩
      simp only [VLink, Option.map_some, Option.some.injEq, exists_eq_left', link_cloneGraph]
    · rename_i hreg
      have hno : ∀ r x, (⟨u, .rel r, .cuds x⟩ : Triple) ∉ s.g := fun r x h => hreg ((I.reg u).2 (Or.inl (old_link S I hu hC h).1))
      refine ⟨List.nodup_nil, fun r x => ?_, ?_, fun r x => ?_⟩
      · simp [hno]
      · simp
      · simp [VLink, hno]
  obtain ⟨old, hold, oldN, oldL, oldS, oldV⟩ := hold
  rw [hold]
  have newL : ∀ r x, (⟨u, .rel r, .cuds x⟩ : Triple) ∈ s1.g ↔ B.link u r x := by
    intro r x
    rw [mem1]
    constructor
    · rintro (⟨_, h⟩ | h | ⟨_, _, _, h⟩ | ⟨r', x', hl, h | ⟨_, _, h⟩⟩)
      · exact absurd rfl h
      · cases h
      · cases h
      · cases h; exact hl
      · cases h
    · intro h
      exact Or.inr (Or.inr (Or.inr ⟨r, x, h, Or.inl rfl⟩))
  have newV : ∀ r x, VLink (some ⟨s1.g, u⟩) r x ↔ B.link u r x := by
    intro r x
    rw [← newL]
    simp [VLink]
  obtain ⟨nd, hnd, ndm⟩ := neighborDiff_mem (O := O) S.order (some ⟨s1.g, u⟩) (old.map fun h => (⟨h, u⟩ : View)) "non-active" (by simp)
  obtain ⟨od, hod, odm⟩ := neighborDiff_mem (O := O) S.order (old.map fun h => (⟨h, u⟩ : View)) (some ⟨s1.g, u⟩) "all" (by simp)
  simp only [newV, oldV, String.reduceEq, false_implies, true_implies, true_and, and_true] at ndm odm
  obtain ⟨fn1, fn2, fn3⟩ := fixNewParents_spec (O := O) s1.reg u nd s1.g m n1
  obtain ⟨g2, fo0, fo1, fo2, fo3, fo4⟩ := fixOldNeighbors_spec (E := E) (O := O) S.order s1.reg u (old.getD []) oldN od
    (fixNewParents O s1.reg u nd s1.g m).1 fn1
    (fun x r h => (reg1 x).2 (Or.inr (old_link S I hu hC ((odm x r).1 h).1).2.1))
    (fun x r h => (old_link S I hu hC ((odm x r).1 h).1).2.2)
  have hfix : fixNeighbors E O s1.reg u old s1.g m = .ok (g2, (fixNewParents O s1.reg u nd s1.g m).2) := by
    unfold fixNeighbors
    simp only [hnd, hod]
    rw [fo0]
  have hroot : s1.root = s.root := root1 (by rw [I.root]; exact S.root)
  -- types and attributes are not changed by the fixes
  have htype : ∀ v c', (⟨v, .type, .cls c'⟩ : Triple) ∈ g2 ↔ (⟨v, .type, .cls c'⟩ : Triple) ∈ s1.g := by
    intro v c'
    constructor
    · intro h
      rcases fo2 _ h with ⟨h, _⟩ | ⟨r, y, _, hl, h | ⟨c'', hc'', h⟩⟩
      · rcases (fn2 _).1 h with h | ⟨_, _, _, _, _, h⟩
        · exact h
        · cases h
      · cases h
      · cases h
        rw [mem1]
        exact Or.inl ⟨oldS _ hc'', (old_link S I hu hC ((oldL _ _).1 hl)).2.2⟩
    · intro h
      exact fo3 _ ((fn2 _).2 (Or.inl h)) (by rintro ⟨_, _, _, _, h⟩; cases h)
  have hattr : ∀ v a w, (⟨v, .attr a, .val w⟩ : Triple) ∈ g2 ↔ (⟨v, .attr a, .val w⟩ : Triple) ∈ s1.g := by
    intro v a w
    constructor
    · intro h
      rcases fo2 _ h with ⟨h, _⟩ | ⟨r, y, _, hl, h | ⟨c'', hc'', h⟩⟩
      · rcases (fn2 _).1 h with h | ⟨_, _, _, _, _, h⟩
        · exact h
        · cases h
      · cases h
      · cases h
    · intro h
      exact fo3 _ ((fn2 _).2 (Or.inl h)) (by rintro ⟨_, _, _, _, h⟩; cases h)
  have hs1 : ∀ a q b, a ≠ u → ((⟨a, .rel q, .cuds b⟩ : Triple) ∈ s1.g ↔ (⟨a, .rel q, .cuds b⟩ : Triple) ∈ s.g) := by
    intro a q b ha
    rw [mem1]
    constructor
    · rintro (h | h | ⟨_, _, _, h⟩ | ⟨r', x', hl, h | ⟨_, _, h⟩⟩)
      · exact h.1
      · cases h
      · cases h
      · cases h; exact absurd rfl ha
      · cases h
    · intro h
      exact Or.inl ⟨h, ha⟩
  refine ⟨s1, g2, _, hcf, hfix, reg1, hroot, fo1, ?_, ?_, ?_, ?_, ?_, ?_, ?_, ?_, ?_, ?_⟩
  · intro v c'
    rw [htype, mem1]
    constructor
    · rintro (h | h | ⟨_, _, _, h⟩ | ⟨r', x', hl, h | ⟨c'', h', h⟩⟩)
      · exact Or.inl h
      · cases h; exact Or.inr (Or.inl ⟨rfl, rfl⟩)
      · cases h
      · cases h
      · cases h; exact Or.inr (Or.inr ⟨r', hl, h'⟩)
    · rintro (h | ⟨rfl, rfl⟩ | ⟨r, hl, h⟩)
      · exact Or.inl h
      · exact Or.inr (Or.inl rfl)
      · exact Or.inr (Or.inr (Or.inr ⟨r, v, hl, Or.inr ⟨c', h, rfl⟩⟩))
  · intro v a w
    rw [hattr, mem1]
    constructor
    · rintro (h | h | ⟨_, _, h', h⟩ | ⟨r', x', hl, h | ⟨c'', h', h⟩⟩)
      · exact Or.inl h
      · cases h
      · cases h; exact Or.inr ⟨rfl, h'⟩
      · cases h
      · cases h
    · rintro (h | ⟨rfl, h⟩)
      · exact Or.inl h
      · exact Or.inr (Or.inr (Or.inl ⟨a, w, h, rfl⟩))
  · intro t ht
    rcases fo2 _ ht with ⟨h, _⟩ | ⟨r, y, _, hl, h | ⟨c'', hc'', h⟩⟩
    · rcases (fn2 _).1 h with h | ⟨x, r, _, _, _, rfl⟩
      · rcases (mem1 t).1 h with h | rfl | ⟨a, w, _, rfl⟩ | ⟨r', x', hl, rfl | ⟨c'', h', rfl⟩⟩
        · exact I.kinds t h.1
        · exact Or.inl ⟨_, rfl, rfl⟩
        · exact Or.inr (Or.inl ⟨_, _, rfl, rfl⟩)
        · exact Or.inr (Or.inr ⟨_, _, rfl, rfl⟩)
        · exact Or.inl ⟨_, rfl, rfl⟩
      · exact Or.inr (Or.inr ⟨_, _, rfl, rfl⟩)
    · subst h; exact Or.inr (Or.inr ⟨_, _, rfl, rfl⟩)
    · subst h; exact Or.inl ⟨_, rfl, rfl⟩
  · intro a q b ha hb
    rw [← hs1 a q b ha]
    constructor
    · intro h
      rcases fo2 _ h with ⟨h, _⟩ | ⟨r, y, _, hl, h | ⟨c'', hc'', h⟩⟩
      · rcases (fn2 _).1 h with h | ⟨_, _, _, _, _, h⟩
        · exact h
        · cases h; exact absurd rfl hb
      · cases h; exact absurd rfl ha
      · cases h
    · intro h
      exact fo3 _ ((fn2 _).2 (Or.inl h)) (by rintro ⟨_, _, _, _, h⟩; cases h; exact hb rfl)
  · intro a q ha
    rw [← hs1 a q u ha]
    have hrm : Removed O u od ⟨a, .rel q, .cuds u⟩ ↔ (Active O (O.inv q) ∧ (⟨u, .rel (O.inv q), .cuds a⟩ : Triple) ∈ s.g ∧ ¬ B.link u (O.inv q) a) := by
      constructor
      · rintro ⟨x, r, hd, hact, h⟩
        simp only [Triple.mk.injEq, Pred.rel.injEq, and_true] at h
        obtain ⟨rfl, rfl⟩ := h
        rw [S.inv_inv]
        exact ⟨hact, (odm _ _).1 hd⟩
      · rintro ⟨h1, h2, h3⟩
        exact ⟨a, O.inv q, (odm _ _).2 ⟨h2, h3⟩, h1, by rw [S.inv_inv]⟩
    have hnew : (∃ x r, (x, r) ∈ nd ∧ ¬ Active O r ∧ x ∈ s1.reg ∧ (⟨a, .rel q, .cuds u⟩ : Triple) = ⟨x, .rel (O.inv r), .cuds u⟩) ↔
        (B.link u (O.inv q) a ∧ (⟨u, .rel (O.inv q), .cuds a⟩ : Triple) ∉ s.g ∧ ¬ Active O (O.inv q) ∧ a ∈ s1.reg) := by
      constructor
      · rintro ⟨x, r, hd, hact, hr, h⟩
        simp only [Triple.mk.injEq, Pred.rel.injEq, and_true] at h
        obtain ⟨rfl, rfl⟩ := h
        rw [S.inv_inv]
        have := (ndm _ _).1 hd
        exact ⟨this.1, this.2.1, hact, hr⟩
      · rintro ⟨h1, h2, h3, h4⟩
        exact ⟨a, O.inv q, (ndm _ _).2 ⟨h1, h2, h3⟩, h3, h4, by rw [S.inv_inv]⟩
    rw [← hrm, ← hnew, ← fn2]
    constructor
    · intro h
      rcases fo2 _ h with h | ⟨r, y, _, hl, h | ⟨c'', hc'', h⟩⟩
      · exact h
      · cases h; exact absurd rfl ha
      · cases h
    · rintro ⟨h1, h2⟩
      exact fo3 _ h1 h2
  · intro q b h
    refine fo3 _ ((fn2 _).2 (Or.inl ((newL _ _).2 h))) ?_
    rintro ⟨x, r, hd, _, e⟩
    simp only [Triple.mk.injEq] at e
    exact (old_link S I hu hC ((odm x r).1 hd).1).2.2 e.1.symm
  · intro q b h
    rcases fo2 _ h with ⟨h, _⟩ | ⟨r, y, hna, hl, h | ⟨c'', hc'', h⟩⟩
    · rcases (fn2 _).1 h with h | ⟨x, r, hd, _, _, h⟩
      · exact Or.inl ((newL _ _).1 h)
      · simp only [Triple.mk.injEq, Pred.rel.injEq, Obj.cuds.injEq] at h
        obtain ⟨rfl, rfl, rfl⟩ := h
        exact Or.inl (S.cohB.sym _ _ _ ((ndm _ _).1 hd).1)
    · simp only [Triple.mk.injEq, Pred.rel.injEq, Obj.cuds.injEq] at h
      obtain ⟨_, rfl, rfl⟩ := h
      exact Or.inr ⟨(oldL _ _).1 hl, hna⟩
    · cases h
  · intro q x h hna hB kinds hkn hk hys b hb
    have hxu := (old_link S I hu hC h).2.2
    refine fo4 x q ((odm _ _).2 ⟨h, hB⟩) hna kinds hkn ?_ (fun ys h1 h2 => hys ys h1 fun y hy => (oldL _ _).1 (h2 y hy)) b ((oldL _ _).2 hb)
    intro p hp
    rcases hk p hp with ⟨rfl, h1⟩ | ⟨y, hy, h1⟩
    · refine ⟨.cuds u, (fn2 _).2 (Or.inl ((hs1 _ _ _ hxu).2 h1)), ?_⟩
      rintro ⟨x', r, hd, hact, e⟩
      simp only [Triple.mk.injEq, Pred.rel.injEq] at e
      have := congrArg O.inv e.2.1
      rw [S.inv_inv, S.inv_inv] at this
      subst this
      exact hna hact
    · refine ⟨.cuds y, (fn2 _).2 (Or.inl ((hs1 _ _ _ hxu).2 h1)), ?_⟩
      rintro ⟨x', r, hd, hact, e⟩
      simp only [Triple.mk.injEq, Obj.cuds.injEq] at e
      exact hy e.2.2
  · intro q most hmost
    refine ⟨(tgtsOf E (old.getD []) u q).take most, by simp [Nat.min_le_left], fun b hb => ?_⟩
    refine (fixOldNeighbors_few S.order _ u _ q most od fo0 (fun x r h => (old_link S I hu hC ((odm x r).1 h).1).2.2) (fun x hx => ?_) b hb).imp_left fun h => ?_
    · have hx := (odm x q).1 hx
      have hxu := (old_link S I hu hC hx.1).2.2
      refine hmost x hx.1 hx.2 _ (nodup_neighborRels _ _) fun p hp => ?_
      obtain ⟨o, ho⟩ := mem_neighborRels.1 hp
      rcases (fn2 _).1 ho with ho | ⟨x', r, hd, hna, _, e⟩
      · have ho : (⟨x, .rel p, o⟩ : Triple) ∈ s.g := by
          rcases (mem1 _).1 ho with h | h | ⟨_, _, _, h⟩ | ⟨r', x', hl, h | ⟨_, _, h⟩⟩
          · exact h.1
          · cases h
          · cases h
          · cases h; exact absurd rfl hxu
          · cases h
        rcases I.kinds _ ho with ⟨c', h1, h2⟩ | ⟨a, w, h1, h2⟩ | ⟨r, y, h1, h2⟩
        · cases h1
        · cases h1
        · cases h2; exact ⟨y, Or.inl ho⟩
      · simp only [Triple.mk.injEq, Pred.rel.injEq] at e
        obtain ⟨rfl, rfl, rfl⟩ := e
        refine ⟨u, Or.inr ⟨rfl, ?_⟩⟩
        rw [S.inv_inv]
        exact ⟨((ndm _ _).1 hd).1, hna⟩
    · rcases (fn2 _).1 h with h | ⟨x', r, hd, _, _, e⟩
      · exact (newL _ _).1 h
      · simp only [Triple.mk.injEq, Pred.rel.injEq, Obj.cuds.injEq] at e
        obtain ⟨rfl, rfl, rfl⟩ := e
        exact S.cohB.sym _ _ _ ((ndm _ _).1 hd).1
  · intro e
    rw [fn3]
    refine or_congr Iff.rfl ?_
    constructor
    · rintro ⟨x, r, hd, hna, hx, rfl⟩
      have := (ndm _ _).1 hd
      exact ⟨x, r, this.1, this.2.1, hna, hx, rfl⟩
    · rintro ⟨x, r, h1, h2, h3, h4, rfl⟩
      exact ⟨x, r, (ndm _ _).2 ⟨h1, h2, h3⟩, h3, h4, rfl⟩

/-- The invariant after one more object was copied. -/
theorem inv_step (S : Setup E O s0 src A B me n) {P : List Uid} {s : Sess} (I : Inv O s0 A B (Copied O B me n) P s) {u : Uid} (hu : u ∉ P)
    (hC : Copied O B me n u) (m : Missing) :
    ∃ s1 g2 m2, createFrom E src s u = ⟨.ok (), s1⟩ ∧
      fixNeighbors E O s1.reg u (if u ∈ s.reg then some (cloneGraph s.g u) else none) s1.g m = .ok (g2, m2) ∧
      Inv O s0 A B (Copied O B me n) (u :: P) { s1 with g := g2 } ∧
      (∀ q b, Active O q → ((⟨u, .rel q, .cuds b⟩ : Triple) ∈ g2 ↔ B.link u q b)) ∧
      (∀ e, e ∈ m2 ↔ e ∈ m ∨ ∃ x r, B.link u r x ∧ ¬ Active O r ∧ A.cls x = none ∧ x ∉ u :: P ∧ e = (x, u, r)) := by
  obtain ⟨c, hc⟩ := Option.ne_none_iff_exists'.1 (S.copied_cls hC)
  obtain ⟨s1, g2, m2, hcf, hfix, hreg, hroot, hnd, ht, ha, hk, hl00, hl0u, hluB, hluU, hluP, hluL, hm⟩ := fixed_spec S I hu hC hc m
  have hregI : ∀ v, v ∈ s1.reg ↔ A.cls v ≠ none ∨ v ∈ u :: P := by
    intro v
    rw [hreg, I.reg, List.mem_cons]
    constructor
    · rintro (h | h | h)
      · exact Or.inr (Or.inl h)
      · exact Or.inl h
      · exact Or.inr (Or.inr h)
    · rintro (h | h | h)
      · exact Or.inr (Or.inl h)
      · exact Or.inl h
      · exact Or.inr (Or.inr h)
  refine ⟨s1, g2, m2, hcf, hfix, ?_, ?_, ?_⟩
  · constructor
    · intro v hv
      rcases List.mem_cons.1 hv with rfl | hv
      · exact hC
      · exact I.sub v hv
    · exact hnd
    · exact hregI
    · exact hroot.trans I.root
    · exact hk
    · intro v c' hv
      simp only
      rw [ht]
      by_cases hvu : v = u
      · subst hvu
        rw [hc]
        constructor
        · rintro (h | h | ⟨_, _, h⟩)
          · exact absurd rfl h.2
          · rw [h.2]
          · exact h
        · intro h
          exact Or.inr (Or.inl ⟨rfl, (Option.some.inj h).symm⟩)
      · have hvP : v ∈ P := (List.mem_cons.1 hv).resolve_left hvu
        rw [I.typeP v c' hvP]
        constructor
        · rintro (h | h | ⟨_, _, h⟩)
          · exact h.1
          · exact absurd h.1 hvu
          · exact h
        · intro h
          exact Or.inl ⟨h, hvu⟩
    · intro v c' hv h
      simp only [List.mem_cons, not_or] at hv
      exact (ht v c').2 (Or.inl ⟨I.typeO v c' hv.2 h, hv.1⟩)
    · intro v c' hv h
      simp only [List.mem_cons, not_or] at hv
      rcases (ht v c').1 h with h | h | ⟨_, _, h⟩
      · exact I.typeN v c' hv.2 h.1
      · exact absurd h.1 hv.1
      · exact Or.inr h
    · intro v a w hv
      simp only
      rw [ha]
      by_cases hvu : v = u
      · subst hvu; simp
      · have hvP : v ∈ P := (List.mem_cons.1 hv).resolve_left hvu
        rw [I.attrP v a w hvP]
        simp [hvu]
    · intro v a w hv
      simp only [List.mem_cons, not_or] at hv
      simp only
      rw [ha, I.attrO v a w hv.2]
      simp [hv.1]
    · intro a q b haP hbP
      simp only [List.mem_cons, not_or] at haP hbP
      exact (hl00 a q b haP.1 hbP.1).trans (I.link00 a q b haP.2 hbP.2)
    · intro a q b haP hbP
      simp only [List.mem_cons, not_or] at haP
      by_cases hbu : b = u
      · subst hbu
        simp only
        rw [hl0u a q haP.1, I.link00 a q b haP.2 hu, I.link00 b (O.inv q) a hu haP.2]
        have hsym : A.link a q b ↔ A.link b (O.inv q) a := by
          constructor
          · exact S.cohA.sym a q b
          · intro h; have := S.cohA.sym _ _ _ h; rwa [S.inv_inv] at this
        have hra : a ∈ s1.reg ↔ A.cls a ≠ none := by
          rw [hregI]; simp [haP.1, haP.2]
        rw [← hsym, hra]
        unfold LinkIn
        constructor
        · rintro ⟨h | h, h'⟩
          · refine Or.inl ⟨h, fun hact => ?_⟩
            by_contra hno
            exact h' ⟨hact, h, hno⟩
          · exact Or.inr ⟨h.1, h.2.2.1, h.2.2.2⟩
        · rintro (⟨h1, h2⟩ | ⟨h1, h2, h3⟩)
          · exact ⟨Or.inl h1, fun h => h.2.2 (h2 h.1)⟩
          · refine ⟨?_, fun h => h2 h.1⟩
            by_cases hA : A.link a q b
            · exact Or.inl hA
            · exact Or.inr ⟨h1, hA, h2, h3⟩
      · have hbP' : b ∈ P := (List.mem_cons.1 hbP).resolve_left hbu
        exact (hl00 a q b haP.1 hbu).trans (I.link01 a q b haP.2 hbP')
    · intro a q b haP hlB
      by_cases hau : a = u
      · subst hau; exact hluB q b hlB
      · have haP' : a ∈ P := (List.mem_cons.1 haP).resolve_left hau
        have h0 := I.link1B a q b haP' hlB
        by_cases hbu : b = u
        · subst hbu
          exact (hl0u a q hau).2 ⟨Or.inl h0, fun h => h.2.2 (S.cohB.sym _ _ _ hlB)⟩
        · exact (hl00 a q b hau hbu).2 h0
    · intro a q b haP hin
      by_cases hau : a = u
      · subst hau
        rcases hluU q b hin with h | ⟨h, hna⟩
        · exact Or.inl h
        · by_cases hbP : b ∈ P
          · rcases (I.link01 a q b hu hbP).1 h with ⟨h1, h2⟩ | h1
            · by_cases hact : Active O (O.inv q)
              · left
                have := S.cohB.sym _ _ _ (h2 hact)
                rwa [S.inv_inv] at this
              · exact Or.inr ⟨h1, hna, fun _ => hact⟩
            · left
              have := S.cohB.sym _ _ _ h1.1
              rwa [S.inv_inv] at this
          · have h1 := (I.link00 a q b hu hbP).1 h
            refine Or.inr ⟨h1, hna, fun hb => ?_⟩
            rcases List.mem_cons.1 hb with rfl | hb
            · exact absurd h1 (S.loop_free _ _ hC)
            · exact absurd hb hbP
      · have haP' : a ∈ P := (List.mem_cons.1 haP).resolve_left hau
        by_cases hbu : b = u
        · subst hbu
          obtain ⟨h1, h2⟩ := (hl0u a q hau).1 hin
          rcases h1 with h1 | h1
          · rcases I.link1U a q b haP' h1 with h | ⟨h3, h4, _⟩
            · exact Or.inl h
            · by_cases hB : B.link a q b
              · exact Or.inl hB
              refine Or.inr ⟨h3, h4, fun _ hact => h2 ⟨hact, ?_, ?_⟩⟩
              · rw [I.link01 b (O.inv q) a hu haP']
                refine Or.inl ⟨S.cohA.sym _ _ _ h3, fun h5 => ?_⟩
                rw [S.inv_inv] at h5
                exact absurd h5 h4
              · intro h
                have := S.cohB.sym _ _ _ h
                rw [S.inv_inv] at this
                exact hB this
          · left
            have := S.cohB.sym _ _ _ h1.1
            rwa [S.inv_inv] at this
        · rcases I.link1U a q b haP' ((hl00 a q b hau hbu).1 hin) with h | ⟨h1, h2, h3⟩
          · exact Or.inl h
          · refine Or.inr ⟨h1, h2, fun hb => h3 ?_⟩
            exact (List.mem_cons.1 hb).resolve_left hbu
    · intro a q b haP hCb hlA hna hact hsing
      have hbu : b ≠ u := fun h => hCb (h ▸ hC)
      by_cases hau : a = u
      · subst hau
        have hbP : b ∉ P := fun h => hCb (I.sub b h)
        by_cases hBb : B.link a q b
        · exact hluB q b hBb
        have hrich : Rich O A B (Copied O B me n) a q := hsing.elim (fun h => rich_of_single h hlA hCb hBb) id
        obtain ⟨x, hx, hCx, hBx, kinds, hkn, hk, hlen⟩ := hrich
        have hxP : x ∉ P := fun h => hCx (I.sub x h)
        refine hluP q x ((I.link00 a q x hu hxP).2 hx) hna hBx kinds hkn ?_ ?_ b ((I.link00 a q b hu hbP).2 hlA)
        · intro p hp
          rcases hk p hp with rfl | ⟨y, hCy, hy⟩
          · exact Or.inl ⟨rfl, (I.link00 x _ a hxP hu).2 (S.cohA.sym _ _ _ hx)⟩
          · exact Or.inr ⟨y, fun h => hCy (h ▸ hC), (I.link00 x p y hxP fun h => hCy (I.sub y h)).2 hy⟩
        · intro ys hn1 hy1
          refine hlen ys hn1 fun y hy => ?_
          have hy := hy1 y hy
          by_cases hyP : y ∈ P
          · rcases (I.link01 a q y hu hyP).1 hy with h | h
            · exact h.1
            · exact absurd hact h.2.1
          · exact (I.link00 a q y hu hyP).1 hy
      · have haP' : a ∈ P := (List.mem_cons.1 haP).resolve_left hau
        exact (hl00 a q b hau hbu).2 (I.link1P a q b haP' hCb hlA hna hact hsing)
    · intro a q most haP hpoor
      by_cases hau : a = u
      · subst hau
        refine hluL q most fun x hx hB kinds hkn hk => ?_
        have hA : A.link a q x := by
          by_cases hxP : x ∈ P
          · rcases (I.link01 a q x hu hxP).1 hx with h | h
            · exact h.1
            · have := S.cohB.sym _ _ _ h.1
              rw [S.inv_inv] at this
              exact absurd this hB
          · exact (I.link00 a q x hu hxP).1 hx
        obtain ⟨hCx, hx2⟩ := hpoor x hA hB
        refine hx2 kinds hkn fun p hp => ?_
        have hxP : x ∉ P := fun h => hCx (I.sub x h)
        obtain ⟨y, hy | ⟨rfl, h1, h2⟩⟩ := hk p hp
        · by_cases hyP : y ∈ P
          · rcases (I.link01 x p y hxP hyP).1 hy with h | h
            · exact ⟨y, Or.inl h.1⟩
            · exact ⟨y, Or.inr ⟨I.sub y hyP, h.1, h.2.1⟩⟩
          · exact ⟨y, Or.inl ((I.link00 x p y hxP hyP).1 hy)⟩
        · exact ⟨y, Or.inr ⟨hC, h1, h2⟩⟩
      · have haP' : a ∈ P := (List.mem_cons.1 haP).resolve_left hau
        obtain ⟨kept, hk1, hk2⟩ := I.link1L a q most haP' hpoor
        refine ⟨kept, hk1, fun b hb => ?_⟩
        by_cases hbu : b = u
        · subst hbu
          rcases ((hl0u a q hau).1 hb).1 with h | h
          · exact hk2 b h
          · left
            have := S.cohB.sym _ _ _ h.1
            rwa [S.inv_inv] at this
        · exact hk2 b ((hl00 a q b hau hbu).1 hb)
  · intro q b hact
    constructor
    · intro h
      rcases hluU q b h with h | h
      · exact h
      · exact absurd hact h.2
    · exact hluB q b
  · intro e
    rw [hm]
    refine or_congr Iff.rfl ⟨?_, ?_⟩
    · rintro ⟨x, r, h1, h2, h3, h4, rfl⟩
      rw [hregI, not_or, not_not] at h4
      exact ⟨x, r, h1, h3, h4.1, h4.2, rfl⟩
    · rintro ⟨x, r, h1, h2, h3, h4, rfl⟩
      refine ⟨x, r, h1, fun h => ?_, h2, ?_, rfl⟩
      · have := (old_link S I hu hC h).2.1
        rw [I.reg] at this
        rcases this with h' | h'
        · exact h' h3
        · exact h4 (List.mem_cons_of_mem _ h')
      · rw [hregI, not_or, not_not]
        exact ⟨h3, h4⟩

end Osp.Store
