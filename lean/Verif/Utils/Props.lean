import Verif.Utils.Model
import Verif.Search.Props
import Verif.Cuds.Root
/-!
# Properties of the searching and removing helpers (C73, C74)
-/
namespace Osp.Utils
open Osp.Cuds Osp.Search

/-- The object has a class below `c`. -/
def IsA (O : Onto) (s : Sess) (c : Cls) (x : Uid) : Prop := ∃ c', (⟨x, .type, .cls c'⟩ : Triple) ∈ s.g ∧ O.subCls c' c = true

/-- The object's class has the attribute and its value is `v`. -/
def HasValue (O : Onto) (s : Sess) (a : Attr) (v : Val) (x : Uid) : Prop :=
  (⟨x, .attr a, .val v⟩ : Triple) ∈ s.g ∧ ∃ c, (⟨x, .type, .cls c⟩ : Triple) ∈ s.g ∧ a ∈ O.attrs c

/-- The object is linked to some object by `r` (with `sub`: by a relationship below `r`). -/
def HasRel (O : Onto) (s : Sess) (r : Rel) (sub : Bool) (x : Uid) : Prop :=
  ∃ r' y, (⟨x, .rel r', .cuds y⟩ : Triple) ∈ s.g ∧ (if sub then O.subRel r' r = true else r' = r)

theorem clsTest_iff {O : Onto} {s : Sess} {c : Cls} {x : Uid} : clsTest O s.g (some c) x = true ↔ IsA O s c x := by
  simp [clsTest, IsA, mem_oclasses]

theorem attrCrit_iff {O : Onto} (hW : O.WF) {s : Sess} (hs : Reachable O s) {a : Attr} {v : Val} {x : Uid} :
    attrCrit O s a v x = true ↔ HasValue O s a v x := by
  obtain ⟨A, h, hco⟩ := reachable_view hW hs
  unfold attrCrit HasValue
  rw [h.attr]
  simp only [h.type]
  cases hc : A.cls x with
  | none =>
    have : getAttr O s x a = .error .attributeError := by unfold getAttr; rw [oclass_ref h, hc]
    rw [this]; simp
  | some c =>
    rw [getAttr_ref h x a c hc]
    by_cases ha : a ∈ O.attrs c
    · rw [if_pos ha]
      cases hv : A.attr x a with
      | none => simp
      | some w => simp [ha]
    · rw [if_neg ha]; simp [ha]

theorem relCrit_iff {O : Onto} (hW : O.WF) {s : Sess} (hs : Reachable O s) {r : Rel} {sub : Bool} {x : Uid} :
    relCrit O s r sub x = true ↔ HasRel O s r sub x := by
  obtain ⟨A, h, hco⟩ := reachable_view hW hs
  unfold relCrit HasRel
  cases sub
  · simp only [Bool.false_eq_true, if_false, decide_eq_true_eq, mem_neighborRels_ref h, h.link]
    constructor
    · rintro ⟨y, hy⟩; exact ⟨r, y, hy, rfl⟩
    · rintro ⟨_, y, hy, rfl⟩; exact ⟨y, hy⟩
  · simp only [if_true, List.any_eq_true, mem_neighborRels_ref h, h.link]
    constructor
    · rintro ⟨r', ⟨y, hy⟩, h1⟩; exact ⟨r', y, hy, h1⟩
    · rintro ⟨r', y, hy, h1⟩; exact ⟨r', ⟨y, hy⟩, h1⟩

section search
variable {O : Onto} (hW : O.WF) {s : Sess} (hs : Reachable O s) (rel : Option Rel) (root : Uid) (hroot : root ∈ s.reg)
  (fuel : Nat) (hf : s.reg.length + 1 ≤ fuel)
include hW hs hroot hf

/-- C73: searching for a uid finds that object exactly if it is reachable. -/
theorem find_by_uid (uid : Uid) :
    ∃ res, findByUid O s fuel uid root rel = some res ∧ (res = some uid ∨ res = none) ∧ (res = some uid ↔ Reaches O s rel root uid) := by
  obtain ⟨res, V, h1, h2, h3⟩ := find_first_exact hW hs rel (uidCrit uid) root hroot fuel hf
  refine ⟨res, by simp [findByUid, h1], ?_, ?_⟩
  · cases res with
    | none => exact Or.inr rfl
    | some x => have := (h2 x rfl).2; simp [uidCrit] at this; simp [this]
  · constructor
    · intro h; exact (h2 _ h).1
    · intro h
      cases res with
      | none => have := (h3.1 rfl) uid h; simp [uidCrit] at this
      | some x => have := (h2 x rfl).2; simp [uidCrit] at this; simp [this]

/-- C73: searching by class finds exactly the reachable objects of that class or a subclass, each once. -/
theorem find_by_oclass (c : Cls) :
    ∃ l, findByOclass O s fuel c root rel = some l ∧ l.Nodup ∧ ∀ x, x ∈ l ↔ Reaches O s rel root x ∧ IsA O s c x := by
  obtain ⟨l, V, h1, h2, h3⟩ := find_all_exact hW hs rel (clsTest O s.g (some c)) root hroot fuel hf
  exact ⟨l, by simp [findByOclass, h1], h2, fun x => by rw [h3, clsTest_iff]⟩

/-- C73: searching by attribute finds exactly the reachable objects with that value, each once. -/
theorem find_by_attribute (a : Attr) (v : Val) :
    ∃ l, findByAttribute O s fuel a v root rel = some l ∧ l.Nodup ∧ ∀ x, x ∈ l ↔ Reaches O s rel root x ∧ HasValue O s a v x := by
  obtain ⟨l, V, h1, h2, h3⟩ := find_all_exact hW hs rel (attrCrit O s a v) root hroot fuel hf
  exact ⟨l, by simp [findByAttribute, h1], h2, fun x => by rw [h3, attrCrit_iff hW hs]⟩

/-- C73: searching for a relationship finds exactly the reachable objects that have it (or one below it), each once. -/
theorem find_by_relationship (r : Rel) (sub : Bool) :
    ∃ l, findRelationships O s fuel r root rel sub = some l ∧ l.Nodup ∧ ∀ x, x ∈ l ↔ Reaches O s rel root x ∧ HasRel O s r sub x := by
  obtain ⟨l, V, h1, h2, h3⟩ := find_all_exact hW hs rel (relCrit O s r sub) root hroot fuel hf
  exact ⟨l, by simp [findRelationships, h1], h2, fun x => by rw [h3, relCrit_iff hW hs]⟩

end search

section filters
variable {O : Onto} (hW : O.WF) {s : Sess} (hs : Reachable O s)
include hW hs

/-- C73: the filters of the registry return exactly the registered objects with the class (not its subclasses), with the value, with the
relationship (or one below it). -/
theorem registry_filters (c : Cls) (a : Attr) (v : Val) (r : Rel) (sub : Bool) (x : Uid) :
    (x ∈ filterByOclass s c ↔ (⟨x, .type, .cls c⟩ : Triple) ∈ s.g) ∧
    (x ∈ filterByAttribute O s a v ↔ HasValue O s a v x) ∧
    (x ∈ filterByRelationships O s r sub ↔ HasRel O s r sub x) := by
  obtain ⟨A, h, hco⟩ := reachable_view hW hs
  refine ⟨?_, ?_, ?_⟩
  · simp only [filterByOclass, regFilter, List.mem_filter, oclass_ref h, decide_eq_true_eq, h.type, h.reg]
    constructor
    · rintro ⟨_, h1⟩; exact h1
    · intro h1; exact ⟨by simp [h1], h1⟩
  · simp only [filterByAttribute, regFilter, List.mem_filter, attrCrit_iff hW hs]
    constructor
    · rintro ⟨_, h1⟩; exact h1
    · rintro ⟨h1, c, h2, h3⟩
      exact ⟨by rw [h.reg, (h.type _ _).1 h2]; simp, h1, c, h2, h3⟩
  · simp only [filterByRelationships, regFilter, List.mem_filter, relCrit_iff hW hs]
    constructor
    · rintro ⟨_, h1⟩; exact h1
    · rintro ⟨r', y, h1, h2⟩
      exact ⟨((links_symmetric hW hs _ _ _).2 h1).1, r', y, h1, h2⟩

omit hW hs in
/-- C74: exactly the relationships that link the subject to the object, each once. -/
theorem relationships_between (a b : Uid) :
    (relationshipsBetween s a b).Nodup ∧ ∀ r, r ∈ relationshipsBetween s a b ↔ (⟨a, .rel r, .cuds b⟩ : Triple) ∈ s.g := by
  refine ⟨(nodup_neighborRels _ _).filter _, fun r => ?_⟩
  simp only [relationshipsBetween, List.mem_filter, decide_eq_true_eq, mem_targets, mem_neighborRels]
  exact ⟨fun h => h.2, fun h => ⟨⟨_, h⟩, h⟩⟩

/-- C74: the relationships in the other direction are the inverses. -/
theorem relationships_between_inverse (a b : Uid) (r : Rel) : r ∈ relationshipsBetween s a b ↔ O.inv r ∈ relationshipsBetween s b a := by
  rw [(relationships_between a b).2, (relationships_between b a).2]
  exact (links_symmetric hW hs a b r).1

end filters

/-- A link that starts or ends at `u`. -/
def LinkOf (u : Uid) (t : Triple) : Prop := ∃ a r b, t = ⟨a, .rel r, .cuds b⟩ ∧ (a = u ∨ b = u)

theorem removeEach_exact {O : Onto} (hW : O.WF) (u : Uid) (xs : List Uid) {s : Sess} (hs : Reachable O s) (hu : u ∈ s.reg) (hn : xs.Nodup)
    (hx : ∀ x ∈ xs, ∃ r, (⟨u, .rel r, .cuds x⟩ : Triple) ∈ s.g) :
    Reachable O (removeEach O u xs s).st ∧ (removeEach O u xs s).res = .ok () ∧ (removeEach O u xs s).st.reg = s.reg ∧
    (removeEach O u xs s).st.root = s.root ∧
    ∀ t, t ∈ (removeEach O u xs s).st.g ↔ t ∈ s.g ∧ ¬ ∃ x ∈ xs, ∃ r, t = ⟨u, .rel r, .cuds x⟩ ∨ t = ⟨x, .rel r, .cuds u⟩ := by
  induction xs generalizing s with
  | nil => exact ⟨hs, rfl, rfl, rfl, fun t => by simp [removeEach]⟩
  | cons x xs ih =>
    obtain ⟨k1, k2, k3, _⟩ := remove_exact hW hs u [x] (some O.relationship) none (Or.inr rfl)
    obtain ⟨r0, hr0⟩ := hx x (by simp)
    have hok := k3 ⟨r0, x, hr0, Or.inr (by simp), by rintro _ ⟨⟩; exact hW.top _, by simp⟩
    have hmem : ∀ t, t ∈ (remove O s u [x] (some O.relationship) none).st.g ↔
        t ∈ s.g ∧ ¬ ∃ r, t = ⟨u, .rel r, .cuds x⟩ ∨ t = ⟨x, .rel r, .cuds u⟩ := by
      intro t
      rw [k1]
      refine and_congr_right fun ht => not_congr ?_
      constructor
      · rintro ⟨r, y, ⟨_, h2, _⟩, h4⟩
        have : y = x := by simpa using h2
        subst this
        rcases h4 with h4 | h4
        · exact ⟨r, Or.inl h4⟩
        · exact ⟨_, Or.inr h4⟩
      · rintro ⟨r, rfl | rfl⟩
        · exact ⟨r, x, ⟨ht, Or.inr (by simp), by rintro _ ⟨⟩; exact hW.top _, by simp⟩, Or.inl rfl⟩
        · exact ⟨O.inv r, x, ⟨(links_symmetric hW hs _ _ _).1.1 ht, Or.inr (by simp), by rintro _ ⟨⟩; exact hW.top _, by simp⟩,
            Or.inr (by rw [hW.inv_inv])⟩
    have hroot := remove_root (O := O) (s := s) u [x] (some O.relationship) none
    have hs' : Reachable O (remove O s u [x] (some O.relationship) none).st := hs.step (.remove u [x] (some O.relationship) none) hu
    unfold removeEach
    generalize remove O s u [x] (some O.relationship) none = o at *
    obtain ⟨res, s'⟩ := o
    simp only at hok k2 hmem hroot hs'
    subst hok
    simp only
    rw [List.nodup_cons] at hn
    obtain ⟨i1, i2, i3, i4, i5⟩ := ih hs' (by rw [k2]; exact hu) hn.2 (fun y hy => by
      obtain ⟨r, hr⟩ := hx y (List.mem_cons_of_mem _ hy)
      by_cases hyu : x = u ∧ y = u
      · exact absurd (by rw [hyu.1, ← hyu.2]; exact hy) hn.1
      refine ⟨r, (hmem _).2 ⟨hr, ?_⟩⟩
      rintro ⟨r', h1 | h1⟩
      · cases h1; exact hn.1 hy
      · cases h1; exact hyu ⟨rfl, rfl⟩)
    refine ⟨i1, i2, by rw [i3, k2], by rw [i4, hroot], fun t => ?_⟩
    rw [i5, hmem]
    simp only [List.mem_cons, exists_eq_or_imp, not_or, and_assoc]

/-- C74: `remove_cuds_object` succeeds and removes exactly the links of the object, in both directions; attributes, types, links between other
objects and the registry stay. -/
theorem remove_cuds_object {O : Onto} (hW : O.WF) {s : Sess} (hs : Reachable O s) (u : Uid) (hu : u ∈ s.reg) :
    Reachable O (removeCudsObject O s u).st ∧ (removeCudsObject O s u).res = .ok () ∧ (removeCudsObject O s u).st.reg = s.reg ∧
    (removeCudsObject O s u).st.root = s.root ∧
    ∀ t, t ∈ (removeCudsObject O s u).st.g ↔ t ∈ s.g ∧ ¬ LinkOf u t := by
  obtain ⟨A, h, hco⟩ := reachable_view hW hs
  obtain ⟨l, h1, hnd, h3⟩ := get_by_filter h hco u (some O.relationship) none
  have hch : children O s (some O.relationship) u = l := by
    unfold children; rw [h1]; simp [List.filterMap_map]
  have hl : ∀ x, x ∈ children O s (some O.relationship) u ↔ ∃ r, (⟨u, .rel r, .cuds x⟩ : Triple) ∈ s.g := by
    intro x
    rw [mem_children hW hs]
    exact ⟨fun ⟨r, hr, _⟩ => ⟨r, hr⟩, fun ⟨r, hr⟩ => ⟨r, hr, by rintro _ ⟨⟩; exact hW.top _⟩⟩
  obtain ⟨k1, k2, k3, k4, k5⟩ := removeEach_exact hW u (children O s (some O.relationship) u) hs hu (hch ▸ hnd) (fun x hx => (hl x).1 hx)
  refine ⟨k1, k2, k3, k4, fun t => ?_⟩
  unfold removeCudsObject
  rw [k5]
  refine and_congr_right fun ht => not_congr ?_
  constructor
  · rintro ⟨x, _, r, rfl | rfl⟩
    · exact ⟨_, r, _, rfl, Or.inl rfl⟩
    · exact ⟨_, r, _, rfl, Or.inr rfl⟩
  · rintro ⟨a, r, b, rfl, rfl | rfl⟩
    · exact ⟨b, (hl b).2 ⟨r, ht⟩, r, Or.inl rfl⟩
    · exact ⟨a, (hl a).2 ⟨_, (links_symmetric hW hs _ _ _).1.1 ht⟩, r, Or.inr rfl⟩

/-- C74: after a following `prune` the object is gone: unregistered, and no triple mentions it. -/
theorem remove_then_prune {O : Onto} (hW : O.WF) {s : Sess} (hs : Reachable O s) (u root : Uid) (hu : u ∈ s.reg) (hr : s.root = some root)
    (hroot : root ∈ s.reg) (hne : root ≠ u) (rel : Option Rel) (fuel : Nat) (hf : s.reg.length + 1 ≤ fuel) :
    ∃ s', prune O (removeCudsObject O s u).st fuel rel = some ⟨.ok (), s'⟩ ∧ u ∉ s'.reg ∧ ∀ t ∈ s'.g, t.s ≠ u ∧ t.o ≠ .cuds u := by
  obtain ⟨k1, _, k3, k4, k5⟩ := remove_cuds_object hW hs u hu
  obtain ⟨s', h1, h2, h3⟩ := prune_exact hW k1 rel root (by rw [k4, hr]) (by rw [k3]; exact hroot) fuel (by rw [k3]; exact hf)
  have hno : ∀ x, Reaches O (removeCudsObject O s u).st rel root x → x ≠ u := by
    intro x hx
    induction hx with
    | refl => exact hne
    | tail _ hl _ =>
      obtain ⟨r, hl, _⟩ := hl
      rintro rfl
      exact ((k5 _).1 hl).2 ⟨_, r, _, rfl, Or.inr rfl⟩
  refine ⟨s', h1, fun h => hno _ ((h2 u).1 h).2 rfl, fun t ht => ⟨hno _ ((h3 t).1 ht).2, ?_⟩⟩
  obtain ⟨a, _⟩ := (h3 t).1 ht
  obtain ⟨b, c⟩ := (k5 t).1 a
  intro ho
  obtain ⟨A, h, hco⟩ := reachable_view hW hs
  obtain ⟨ts, tp, t3⟩ := t
  simp only at ho
  rcases h.kinds _ b with ⟨_, _, h5⟩ | ⟨_, _, _, h5⟩ | ⟨q, x, h4, h5⟩ <;> simp only at h5 <;> rw [ho] at h5 <;> cases h5
  simp only at h4
  exact c ⟨ts, q, u, by rw [h4, ho], Or.inr rfl⟩

/-! ### Non-vacuity -/

/-- An ontology like `exOnto` with the class 6 below 5. -/
def exOnto6 : Onto := { exOnto with subCls := fun c c' => c = c' || (c = 6 && c' = 5) }

/-- A session: 1 has the parts 2 and 3, 3 has the part 1 (a cycle), 4 is apart. -/
def exS : Sess := (run exOnto6 {} [.create 1 5 [(7, 10)], .create 2 6 [(7, 20)], .create 3 5 [(7, 10)], .create 4 6 [(7, 10)], .add 1 [2, 3] (some 1) none,
  .add 3 [1] (some 1) none]).2

theorem exOnto6_wf : exOnto6.WF := by
  constructor
  · intro r
    by_cases h1 : r = 1
    · subst h1; rfl
    · by_cases h2 : r = 2
      · subst h2; rfl
      · simp [exOnto6, exOnto, h1, h2]
  · intro r; simp [exOnto6, exOnto]

theorem exS_reachable : Reachable exOnto6 exS := by
  refine reachable_run _ .init ?_
  repeat' constructor
  all_goals decide

example : findByUid exOnto6 exS 5 3 1 (some 1) = some (some 3) := by decide +kernel
example : findByUid exOnto6 exS 5 4 1 (some 1) = some none := by decide +kernel
example : findByOclass exOnto6 exS 5 5 1 (some 1) = some [1, 2, 3] := by decide +kernel
example : findByAttribute exOnto6 exS 5 7 10 1 (some 1) = some [1, 3] := by decide +kernel
example : findRelationships exOnto6 exS 5 1 1 (some 1) false = some [1, 3] := by decide +kernel
example : findRelationships exOnto6 exS 5 0 1 (some 1) false = some [] ∧ findRelationships exOnto6 exS 5 0 1 (some 1) true = some [1, 2, 3] := by
  decide +kernel
example : relationshipsBetween exS 1 3 = [1, 2] := by decide +kernel
example : 3 ∈ exS.reg ∧ exS.root = some 1 ∧ 1 ∈ exS.reg ∧ exS.reg.length = 4 := by decide +kernel
example : (removeCudsObject exOnto6 exS 3).st.g.length = exS.g.length - 4 := by decide +kernel

/-- The two ways to look for a class differ: the search includes subclasses, the filter of the registry does not. -/
theorem search_and_filter_differ : findByOclass exOnto6 exS 5 5 1 none = some [1, 2, 3] ∧ filterByOclass exS 5 = [1, 3] := by decide +kernel

end Osp.Utils
