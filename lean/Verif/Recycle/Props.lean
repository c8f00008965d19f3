import Verif.Recycle.Model
import Verif.Recycle.Spec
import Verif.Cuds.Props
import Verif.Utils.Props
import Verif.Export.Props
/-!
# Changing the class of an object, and recycling (C79, C80)
-/
namespace Osp.Recycle
open Osp.Cuds Osp.Utils

/-! ### the neighbours are told -/

theorem mem_retype {O : Onto} {u x : Uid} {c : Cls} (rels : List Rel) (g : Graph) (t : Triple) :
    t ∈ retype O u x c rels g ↔ t ∈ g ∨ (∃ r ∈ rels, t = ⟨x, .rel (O.inv r), .cuds u⟩) ∨ (rels ≠ [] ∧ t = ⟨u, .type, .cls c⟩) := by
  induction rels generalizing g with
  | nil => simp [retype]
  | cons r rs ih =>
    have h : retype O u x c (r :: rs) g = retype O u x c rs (setTarget g x (O.inv r) u [c]) := rfl
    rw [h, ih, mem_setTarget]
    simp only [List.mem_cons, List.not_mem_nil, or_false, exists_eq_left, exists_eq_or_imp, ne_eq, reduceCtorEq, not_false_eq_true, true_and]
    constructor
    · rintro ((h | h | h) | h | ⟨_, h⟩)
      · exact .inr (.inl (.inl h))
      · exact .inl h
      · exact .inr (.inr h)
      · exact .inr (.inl (.inr h))
      · exact .inr (.inr h)
    · rintro (h | (h | h) | h)
      · exact .inl (.inr (.inl h))
      · exact .inl (.inl h)
      · exact .inr (.inl h)
      · exact .inl (.inr (.inr h))

theorem nodup_retype {O : Onto} {u x : Uid} {c : Cls} (rels : List Rel) (g : Graph) (h : g.Nodup) : (retype O u x c rels g).Nodup := by
  induction rels generalizing g with
  | nil => exact h
  | cons r rs ih => exact ih _ (nodup_setTarget h)

/-- Telling neighbours that know of their links adds the new class of the object and nothing else. -/
theorem retypeLoop_ok {O : Onto} (u : Uid) (c : Cls) (xs : List Uid) (g : Graph)
    (hx : ∀ x ∈ xs, ∃ r, (⟨u, .rel r, .cuds x⟩ : Triple) ∈ g) (hsym : ∀ r x, (⟨u, .rel r, .cuds x⟩ : Triple) ∈ g → (⟨x, .rel (O.inv r), .cuds u⟩ : Triple) ∈ g) :
    ∃ g', retypeLoop O u c (xs.map some) g = (.ok (), g') ∧ (g.Nodup → g'.Nodup) ∧
      ∀ t, t ∈ g' ↔ t ∈ g ∨ (xs ≠ [] ∧ t = ⟨u, .type, .cls c⟩) := by
  induction xs generalizing g with
  | nil => exact ⟨g, rfl, id, by simp⟩
  | cons x xs ih =>
    have hm : ∀ t, t ∈ retype O u x c (relationshipsBetween { g := g } u x) g ↔ t ∈ g ∨ t = ⟨u, .type, .cls c⟩ := by
      intro t
      rw [mem_retype]
      have hne : relationshipsBetween { g := g } u x ≠ [] := by
        obtain ⟨r, hr⟩ := hx x (by simp)
        exact List.ne_nil_of_mem (((relationships_between (s := { g := g }) u x).2 r).2 hr)
      constructor
      · rintro (h | ⟨r, hr, h⟩ | h)
        · exact .inl h
        · subst h
          exact .inl (hsym r x (((relationships_between (s := { g := g }) u x).2 r).1 hr))
        · exact .inr h.2
      · rintro (h | h)
        · exact .inl h
        · exact .inr (.inr ⟨hne, h⟩)
    obtain ⟨g', h1, h2, h3⟩ := ih (retype O u x c (relationshipsBetween { g := g } u x) g)
      (fun y hy => by
        obtain ⟨r, hr⟩ := hx y (by simp [hy])
        exact ⟨r, (hm _).2 (.inl hr)⟩)
      (fun r y hr => by
        rcases (hm _).1 hr with h | h
        · exact (hm _).2 (.inl (hsym r y h))
        · cases h)
    refine ⟨g', h1, fun h => h2 (nodup_retype _ _ h), fun t => ?_⟩
    rw [h3, hm]
    constructor
    · rintro ((h | h) | h)
      · exact .inl h
      · exact .inr ⟨by simp, h⟩
      · exact .inr ⟨by simp, h.2⟩
    · rintro (h | h)
      · exact .inl (.inl h)
      · exact .inl (.inr h.2)

variable {O : Onto} {s : Sess} {A : Abs}

theorem tellNeighbours_ok (hW : O.WF) (h : Refines s A) (hco : A.Coherent O.inv) (u : Uid) (c : Cls) :
    ∃ g', tellNeighbours O s u c = (.ok (), g') ∧ g'.Nodup ∧
      ∀ t, t ∈ g' ↔ t ∈ s.g ∨ (A.cls u ≠ some c ∧ (∃ r x, A.link u r x) ∧ t = ⟨u, .type, .cls c⟩) := by
  unfold tellNeighbours
  rw [oclass_ref h]
  by_cases hc : A.cls u = some c
  · rw [if_pos hc]
    exact ⟨s.g, rfl, h.nodup, by simp [hc]⟩
  · rw [if_neg hc]
    obtain ⟨l, h1, h2, h3⟩ := get_by_filter h hco u (some O.relationship) none
    rw [h1]
    simp only
    obtain ⟨g', k1, k2, k3⟩ := retypeLoop_ok (O := O) u c l s.g (fun x hx => by
        obtain ⟨r, hr, _⟩ := (h3 x).1 hx
        exact ⟨r, (h.link _ _ _).2 hr⟩)
      (fun r x hr => (h.link _ _ _).2 (hco.sym _ _ _ ((h.link _ _ _).1 hr)))
    refine ⟨g', k1, k2 h.nodup, fun t => ?_⟩
    rw [k3]
    have : l ≠ [] ↔ ∃ r x, A.link u r x := by
      constructor
      · intro hl
        obtain ⟨x, hx⟩ := List.exists_mem_of_ne_nil l hl
        obtain ⟨r, hr, _⟩ := (h3 x).1 hx
        exact ⟨r, x, hr⟩
      · rintro ⟨r, x, hl⟩
        exact List.ne_nil_of_mem ((h3 x).2 ⟨r, hl, by simp [Abs.selects, hW.top]⟩)
    rw [this]
    simp [hc]

/-! ### the new values -/

/-- What `storeValues` does when all values can be converted. -/
theorem storeValues_ok (u : Uid) (vals vals' : List (Attr × Val)) (hv : Converted O vals vals') (hn : (vals.map (·.1)).Nodup) (g : Graph) :
    ∃ g', storeValues O u vals g = (.ok (), g') ∧ (g.Nodup → g'.Nodup) ∧
      ∀ t, t ∈ g' ↔ (t ∈ g ∧ ∀ a ∈ vals.map (·.1), ¬ (t.s = u ∧ t.p = .attr a)) ∨ ∃ a v, (a, v) ∈ vals' ∧ t = ⟨u, .attr a, .val v⟩ := by
  induction vals generalizing vals' g with
  | nil =>
    cases vals' with
    | nil => exact ⟨g, rfl, id, by simp⟩
    | cons _ _ => cases hv
  | cons av l ih =>
    obtain ⟨a, v⟩ := av
    cases vals' with
    | nil => cases hv
    | cons aw l' =>
      obtain ⟨a', w⟩ := aw
      obtain ⟨rfl, hc, hl⟩ := hv
      simp only [List.map_cons, List.nodup_cons] at hn
      obtain ⟨g', h1, h2, h3⟩ := ih l' hl hn.2 (g.set ⟨u, .attr a', .val w⟩)
      refine ⟨g', by simp only [storeValues, hc]; exact h1, fun h => h2 (nodup_gadd (nodup_gremove h)), fun t => ?_⟩
      rw [h3, mem_gset]
      simp only [List.map_cons, List.mem_cons, forall_eq_or_imp]
      constructor
      · rintro (⟨h | ⟨ht, hne⟩, hall⟩ | ⟨b, v', hm, ht⟩)
        · exact .inr ⟨a', w, .inl rfl, h⟩
        · exact .inl ⟨ht, hne, hall⟩
        · exact .inr ⟨b, v', .inr hm, ht⟩
      · rintro (⟨ht, hne, hall⟩ | ⟨b, v', hm | hm, ht⟩)
        · exact .inl ⟨.inr ⟨ht, hne⟩, hall⟩
        · cases hm
          refine .inl ⟨.inl ht, fun x hx => ?_⟩
          subst ht
          rintro ⟨_, h⟩
          injection h with h
          subst h
          exact hn.1 hx
        · exact .inr ⟨b, v', hm, ht⟩

theorem converted_keys {vals vals' : List (Attr × Val)} (h : Converted O vals vals') : vals'.map (·.1) = vals.map (·.1) := by
  induction vals generalizing vals' with
  | nil => cases vals' with
    | nil => rfl
    | cons _ _ => cases h
  | cons av l ih => cases vals' with
    | nil => cases h
    | cons aw l' =>
      obtain ⟨h1, _, h3⟩ := h
      simp [h1, ih h3]

/-- Replacing all triples of an object by a type and values. -/
theorem reclass_refines (h : Refines s A) {u : Uid} (hu : u ∈ s.reg) {c : Cls} {vals : List (Attr × Val)} (hn : (vals.map (·.1)).Nodup) {s' : Sess}
    (hreg : s'.reg = s.reg) (hnd : s'.g.Nodup)
    (hm : ∀ t, t ∈ s'.g ↔ (t ∈ s.g ∧ t.s ≠ u) ∨ t = ⟨u, .type, .cls c⟩ ∨ ∃ a v, (a, v) ∈ vals ∧ t = ⟨u, .attr a, .val v⟩) : Refines s' (reclass A u c vals) := by
  apply refines_of_mem h hnd
  · intro v
    rw [hreg, h.reg]
    by_cases hv : v = u
    · subst hv; simpa [reclass] using (h.reg _).1 hu
    · simp [reclass, hv]
  · intro v d
    rw [hm, h.type]
    by_cases hv : v = u
    · subst hv; simp [reclass, eq_comm]
    · simp [reclass, hv]
  · intro v a w
    rw [hm, h.attr]
    by_cases hv : v = u
    · subst hv
      simp only [reclass, if_true, ← mem_iff_lookup hn]
      simp
    · simp [reclass, hv]
  · intro a r b
    rw [hm, h.link]
    simp [reclass]
  · intro t ht
    rcases (hm t).1 ht with h1 | h1 | ⟨a, v, _, h1⟩
    · exact .inl h1.1
    · exact .inr (.inl ⟨c, by simp [h1]⟩)
    · exact .inr (.inr (.inl ⟨a, v, by simp [h1]⟩))
  · intro v a hv
    by_cases h1 : v = u
    · simp [reclass, h1]
    · simp only [reclass, h1, if_false] at hv ⊢
      exact h.owned _ _ hv

/-- **C79, `change_oclass`.** The object gets the class and exactly the given values; its own links disappear, whatever they are; everything else in the session stays, including
the links of the neighbours to the object. -/
theorem change_oclass_exact (hW : O.WF) (h : Refines s A) (hco : A.Coherent O.inv) (u : Uid) (hu : u ∈ s.reg) (c : Cls) (vals vals' : List (Attr × Val))
    (hn : (vals.map (·.1)).Nodup) (hv : Converted O vals vals') :
    ∃ s', changeOclass O s u c (.ok vals) = ⟨.ok (), s'⟩ ∧ s'.reg = s.reg ∧ s'.root = s.root ∧ Refines s' (reclass A u c vals') := by
  obtain ⟨g1, h1, h2, h3⟩ := tellNeighbours_ok hW h hco u c
  obtain ⟨g2, k1, k2, k3⟩ := storeValues_ok u vals vals' hv hn ((g1.remove (some u) none none).add ⟨u, .type, .cls c⟩)
  refine ⟨{ s with g := g2 }, by simp only [changeOclass, h1, k1], rfl, rfl, ?_⟩
  refine reclass_refines h hu (by rw [converted_keys hv]; exact hn) rfl (k2 (nodup_gadd (nodup_gremove h2))) (fun t => ?_)
  rw [k3, mem_gadd, mem_gremove, h3]
  constructor
  · rintro (⟨ht | ⟨ht, hne⟩, _⟩ | ht)
    · exact .inr (.inl ht)
    · rcases ht with ht | ⟨_, _, ht⟩
      · refine .inl ⟨ht, fun hs => ?_⟩
        simp [Triple.matchesPat, hs] at hne
      · exact .inr (.inl ht)
    · exact .inr (.inr ht)
  · rintro (⟨ht, hs⟩ | ht | ht)
    · exact .inl ⟨.inr ⟨.inl ht, by simp [Triple.matchesPat, Ne.symm hs]⟩, fun a _ ha => hs ha.1⟩
    · subst ht
      exact .inl ⟨.inl rfl, fun a _ ha => by cases ha.2⟩
    · exact .inr ht

/-- **C79, when the session stays coherent.** After `change_oclass` all links are still there in both directions exactly if the object had no neighbour but itself. -/
theorem change_oclass_coherent_iff (hco : A.Coherent O.inv) (u : Uid) (hu : A.cls u ≠ none) (c : Cls) (vals : List (Attr × Val)) :
    (reclass A u c vals).Coherent O.inv ↔ ∀ r x, A.link u r x → x = u := by
  constructor
  · intro h r x hl
    by_cases hx : x = u
    · exact hx
    · have := h.sym x (O.inv r) u ⟨hco.sym _ _ _ hl, hx⟩
      exact absurd rfl this.2
  · intro h
    constructor
    · rintro a r b ⟨hl, ha⟩
      refine ⟨hco.sym _ _ _ hl, fun hb => ha ?_⟩
      subst hb
      exact h _ _ (hco.sym _ _ _ hl)
    · rintro a r b ⟨hl, ha⟩
      simpa [reclass, ha] using hco.src _ _ _ hl
    · rintro a r b ⟨hl, ha⟩
      by_cases hb : b = u
      · simp [reclass, hb]
      · simpa [reclass, hb] using hco.dst _ _ _ hl

/-- **C79, refused values.** If the keyword arguments are refused, the exception is raised when the neighbours have been told already: an object with neighbours has the new class
in addition to the old one. Nothing else changes, and an object without neighbours does not change at all. -/
theorem change_oclass_refused (hW : O.WF) (h : Refines s A) (hco : A.Coherent O.inv) (u : Uid) (c : Cls) (e : PyErr) :
    ∃ s', changeOclass O s u c (.error e) = ⟨.error e, s'⟩ ∧ s'.reg = s.reg ∧ s'.root = s.root ∧
      ∀ t, t ∈ s'.g ↔ t ∈ s.g ∨ ((∃ r x, A.link u r x) ∧ t = ⟨u, .type, .cls c⟩) := by
  obtain ⟨g1, h1, h2, h3⟩ := tellNeighbours_ok hW h hco u c
  refine ⟨{ s with g := g1 }, by simp only [changeOclass, h1], rfl, rfl, fun t => ?_⟩
  rw [h3]
  by_cases hc : A.cls u = some c
  · constructor
    · rintro (ht | ht)
      · exact .inl ht
      · exact absurd hc ht.1
    · rintro (ht | ⟨_, rfl⟩)
      · exact .inl ht
      · exact .inl ((h.type _ _).2 hc)
  · simp [hc]

/-- What `storeValues` does when the values after `pre` cannot be converted. -/
theorem storeValues_fails (u : Uid) (pre pre' post : List (Attr × Val)) (a : Attr) (v : Val) (hv : Converted O pre pre') (hc : O.conv a v = none)
    (hn : (pre.map (·.1)).Nodup) (g : Graph) :
    ∃ g', storeValues O u (pre ++ (a, v) :: post) g = (.error .valueError, g') ∧ storeValues O u pre g = (.ok (), g') := by
  induction pre generalizing pre' g with
  | nil => exact ⟨g, by simp [storeValues, hc], rfl⟩
  | cons bw l ih =>
    obtain ⟨b, w⟩ := bw
    cases pre' with
    | nil => cases hv
    | cons bx l' =>
      obtain ⟨_, hc', hl⟩ := hv
      simp only [List.map_cons, List.nodup_cons] at hn
      obtain ⟨g', k1, k2⟩ := ih l' hl hn.2 (g.set ⟨u, .attr b, .val bx.2⟩)
      exact ⟨g', by simpa [storeValues, hc'] using k1, by simpa [storeValues, hc'] using k2⟩

/-- **C79, values that cannot be converted.** ValueError is raised when the object has lost its old values and its links already: it has the new class and the values before the
first one that cannot be converted. -/
theorem change_oclass_unconvertible (hW : O.WF) (h : Refines s A) (hco : A.Coherent O.inv) (u : Uid) (hu : u ∈ s.reg) (c : Cls) (pre pre' post : List (Attr × Val))
    (a : Attr) (v : Val) (hn : (pre.map (·.1)).Nodup) (hv : Converted O pre pre') (hc : O.conv a v = none) :
    ∃ s', changeOclass O s u c (.ok (pre ++ (a, v) :: post)) = ⟨.error .valueError, s'⟩ ∧ s'.reg = s.reg ∧ Refines s' (reclass A u c pre') := by
  obtain ⟨s', h1, h2, _, h4⟩ := change_oclass_exact hW h hco u hu c pre pre' hn hv
  refine ⟨s', ?_, h2, h4⟩
  obtain ⟨g1, k1, _, _⟩ := tellNeighbours_ok hW h hco u c
  obtain ⟨g', m1, m2⟩ := storeValues_fails u pre pre' post a v hv hc hn ((g1.remove (some u) none none).add ⟨u, .type, .cls c⟩)
  simp only [changeOclass, k1, m2] at h1
  simp only [changeOclass, k1, m1]
  injection h1 with _ h1
  rw [h1]

/-! ### removing all links -/

theorem cut_nil (inv : Rel → Rel) (A : Abs) (u : Uid) : cut inv A u (fun _ => False) = A := by
  simp [cut]

theorem disconnect_eq_cut (hW : O.WF) (hco : A.Coherent O.inv) (u : Uid) (r : Rel) :
    A.disconnect O.inv u (A.selects O [] (some r) none) = cut O.inv A u (fun q => O.subRel q r = true) := by
  unfold Abs.disconnect cut
  congr 1
  funext a q b
  simp only [Abs.selects, true_or, Option.some.injEq, forall_eq', reduceCtorEq, false_implies, implies_true, and_true, true_and, eq_iff_iff]
  constructor
  · rintro ⟨h1, h2, h3⟩
    refine ⟨h1, fun ⟨ha, hs⟩ => h2 ⟨ha, ha ▸ h1, hs⟩, fun ⟨hb, hs⟩ => h3 ⟨hb, O.inv q, hW.inv_inv q, ?_, hs⟩⟩
    exact hb ▸ hco.sym _ _ _ h1
  · rintro ⟨h1, h2, h3⟩
    refine ⟨h1, fun ⟨ha, _, hs⟩ => h2 ⟨ha, hs⟩, ?_⟩
    rintro ⟨hb, r', rfl, _, hs⟩
    exact h3 ⟨hb, by rw [hW.inv_inv]; exact hs⟩

theorem cut_cut (inv : Rel → Rel) (A : Abs) (u : Uid) (P Q : Rel → Prop) : cut inv (cut inv A u P) u Q = cut inv A u (fun q => P q ∨ Q q) := by
  unfold cut
  congr 1
  funext a q b
  simp only [eq_iff_iff]
  constructor
  · rintro ⟨⟨h1, h2, h3⟩, h4, h5⟩
    refine ⟨h1, ?_, ?_⟩
    · rintro ⟨ha, h | h⟩
      · exact h2 ⟨ha, h⟩
      · exact h4 ⟨ha, h⟩
    · rintro ⟨ha, h | h⟩
      · exact h3 ⟨ha, h⟩
      · exact h5 ⟨ha, h⟩
  · rintro ⟨h1, h2, h3⟩
    exact ⟨⟨h1, fun h => h2 ⟨h.1, .inl h.2⟩, fun h => h3 ⟨h.1, .inl h.2⟩⟩, fun h => h2 ⟨h.1, .inr h.2⟩, fun h => h3 ⟨h.1, .inr h.2⟩⟩

theorem coherent_cut (hW : O.WF) (hco : A.Coherent O.inv) (u : Uid) (P : Rel → Prop) : (cut O.inv A u P).Coherent O.inv where
  sym := by
    rintro a q b ⟨hl, h1, h2⟩
    exact ⟨hco.sym _ _ _ hl, h2, fun h => h1 ⟨h.1, by simpa [hW.inv_inv] using h.2⟩⟩
  src := fun _ _ _ h => hco.src _ _ _ h.1
  dst := fun _ _ _ h => hco.dst _ _ _ h.1

theorem remove_keeps {self : Uid} {uids : List Uid} {rel : Option Rel} {oc : Option Cls} :
    (remove O s self uids rel oc).st.reg = s.reg ∧ (remove O s self uids rel oc).st.root = s.root := by
  unfold remove
  split
  · exact ⟨rfl, rfl⟩
  · split
    · exact ⟨rfl, rfl⟩
    · exact ⟨rfl, rfl⟩

/-- One step: `remove(rel=r)`. -/
theorem unlink_step (hW : O.WF) (h : Refines s A) (hco : A.Coherent O.inv) (u : Uid) (r : Rel) :
    ((∃ q x, A.link u q x ∧ O.subRel q r = true) → ∃ s', remove O s u [] (some r) none = ⟨.ok (), s'⟩ ∧ s'.reg = s.reg ∧ s'.root = s.root ∧
      Refines s' (cut O.inv A u (fun q => O.subRel q r = true))) ∧
    ((¬ ∃ q x, A.link u q x ∧ O.subRel q r = true) → remove O s u [] (some r) none = ⟨.error .runtimeError, s⟩) := by
  obtain ⟨h1, h2, h3⟩ := remove_sim (O := O) h u [] (some r) none (.inl rfl) (fun r x hl => hco.dst _ _ _ hl)
  rw [disconnect_eq_cut hW hco] at h3
  have he : (∃ q x, A.link u q x ∧ A.selects O [] (some r) none q x) ↔ ∃ q x, A.link u q x ∧ O.subRel q r = true := by
    simp [Abs.selects]
  rw [he] at h1 h2
  constructor
  · intro hh
    refine ⟨(remove O s u [] (some r) none).st, ?_, remove_keeps.1, remove_keeps.2, h3⟩
    rw [← h1 hh]
  · intro hh
    have hr := h2 hh
    obtain ⟨us, m, he', hn, hne, hm, _, _⟩ := getRaw_spec (O := O) h u [] (some r) none (.inl rfl)
    have hm0 : m = [] := by
      cases m with
      | nil => rfl
      | cons e m =>
        exfalso
        obtain ⟨r', hr'⟩ := (Mapping.mem_keys_iff hne (u := e.1)).1 (by simp)
        have := (hm _ _).1 hr'
        exact hh ⟨r', e.1, this.1, by simpa [Abs.selects] using this.2⟩
    simp [remove, he', hm0]

theorem left_cut {u : Uid} {P : Rel → Prop} {e : Rel} {pre : List Rel} {r : Rel} (hP : ∀ q, P q ↔ O.subRel q e = true) :
    Left O (cut O.inv A u P) u pre r ↔ Left O A u (e :: pre) r := by
  unfold Left cut
  simp only [List.mem_cons, forall_eq_or_imp, hP]
  constructor
  · rintro ⟨q, x, ⟨h1, h2, h3⟩, h4, h5⟩
    refine ⟨q, x, h1, h4, ⟨by simpa using h2, fun hx => by simpa [hx] using h3⟩, h5⟩
  · rintro ⟨q, x, h1, h4, ⟨h2, h3⟩, h5⟩
    refine ⟨q, x, ⟨h1, by simp [h2], ?_⟩, h4, h5⟩
    rintro ⟨hx, h⟩
    rw [h3 hx] at h
    cases h

/-- **C80, removing all links of an object one relationship after the other.** It succeeds exactly if every relationship still has a link when its turn comes; then the links by these
relationships and their subrelationships are gone in both directions. -/
theorem unlink_succeeds (hW : O.WF) (h : Refines s A) (hco : A.Coherent O.inv) (u : Uid) (rels : List Rel)
    (ht : ∀ pre r post, rels = pre ++ r :: post → Left O A u pre r) :
    ∃ s', Export.unlink O u rels s = ⟨.ok (), s'⟩ ∧ s'.reg = s.reg ∧ s'.root = s.root ∧ Refines s' (cut O.inv A u (fun q => ∃ r ∈ rels, O.subRel q r = true)) := by
  induction rels generalizing s A with
  | nil => exact ⟨s, rfl, rfl, rfl, by simpa [cut_nil] using h⟩
  | cons r rs ih =>
    have h1 : ∃ q x, A.link u q x ∧ O.subRel q r = true := by
      obtain ⟨q, x, h1, h2, _⟩ := ht [] r rs rfl
      exact ⟨q, x, h1, h2⟩
    obtain ⟨s1, k1, k2, k3, k4⟩ := (unlink_step hW h hco u r).1 h1
    obtain ⟨s2, m1, m2, m3, m4⟩ := ih k4 (coherent_cut hW hco u _) (fun pre r' post he =>
      (left_cut (fun _ => Iff.rfl)).2 (ht (r :: pre) r' post (by rw [he]; rfl)))
    refine ⟨s2, by simp only [Export.unlink, k1]; exact m1, m2.trans k2, m3.trans k3, ?_⟩
    rw [cut_cut] at m4
    simpa using m4

/-- **C80, the other case.** Otherwise RuntimeError is raised at the first relationship without a link left, and the links by the relationships before it are gone. -/
theorem unlink_fails (hW : O.WF) (h : Refines s A) (hco : A.Coherent O.inv) (u : Uid) (pre : List Rel) (r : Rel) (post : List Rel)
    (ht : ∀ p q l, pre = p ++ q :: l → Left O A u p q) (hr : ¬ Left O A u pre r) :
    ∃ s', Export.unlink O u (pre ++ r :: post) s = ⟨.error .runtimeError, s'⟩ ∧ s'.reg = s.reg ∧ s'.root = s.root ∧
      Refines s' (cut O.inv A u (fun q => ∃ r ∈ pre, O.subRel q r = true)) := by
  induction pre generalizing s A with
  | nil =>
    have h1 : ¬ ∃ q x, A.link u q x ∧ O.subRel q r = true := by
      rintro ⟨q, x, h1, h2⟩
      exact hr ⟨q, x, h1, h2, by simp⟩
    refine ⟨s, ?_, rfl, rfl, by simpa [cut_nil] using h⟩
    simp only [List.nil_append, Export.unlink, (unlink_step hW h hco u r).2 h1]
  | cons e es ih =>
    have h1 : ∃ q x, A.link u q x ∧ O.subRel q e = true := by
      obtain ⟨q, x, h1, h2, _⟩ := ht [] e es rfl
      exact ⟨q, x, h1, h2⟩
    obtain ⟨s1, k1, k2, k3, k4⟩ := (unlink_step hW h hco u e).1 h1
    obtain ⟨s2, m1, m2, m3, m4⟩ := ih k4 (coherent_cut hW hco u _) (fun p q l he =>
      (left_cut (fun _ => Iff.rfl)).2 (ht (e :: p) q l (by rw [he]; rfl))) (fun hl => hr ((left_cut (fun _ => Iff.rfl)).1 hl))
    refine ⟨s2, by simp only [List.cons_append, Export.unlink, k1]; exact m1, m2.trans k2, m3.trans k3, ?_⟩
    rw [cut_cut] at m4
    simpa using m4

/-! ### create_recycle -/

/-- Everything is below itself: `rel.subclasses` contains `rel`. -/
def Refl (O : Onto) : Prop := ∀ r, O.subRel r r = true

theorem renew_of_cut (hr : Refl O) (hco : A.Coherent O.inv) (u : Uid) (c : Cls) (vals : List (Attr × Val)) (rels : List Rel)
    (hrels : ∀ r, r ∈ rels ↔ ∃ x, A.link u r x) :
    reclass (cut O.inv A u (fun q => ∃ r ∈ rels, O.subRel q r = true)) u c vals = renew A u c vals := by
  unfold reclass cut renew
  congr 1
  funext a q b
  simp only [eq_iff_iff]
  constructor
  · rintro ⟨⟨h1, _, h3⟩, h4⟩
    refine ⟨h1, h4, fun hb => h3 ⟨hb, O.inv q, ?_, hr _⟩⟩
    subst hb
    exact (hrels _).2 ⟨a, hco.sym _ _ _ h1⟩
  · rintro ⟨h1, h2, h3⟩
    exact ⟨⟨h1, fun h => h2 h.1, fun h => h3 h.1⟩, h2⟩

/-- **C80, `create_recycle` with `fix_neighbors=True` and a known uid.** If every relationship of the object still has a link when its turn comes, the object is as good as new: the
class, exactly the given values, no links in either direction; everything else stays. -/
theorem recycle_fixing_partial (hW : O.WF) (hr : Refl O) (h : Refines s A) (hco : A.Coherent O.inv) (u : Uid) (hu : u ∈ s.reg) (c : Cls) (vals vals' : List (Attr × Val))
    (hn : (vals.map (·.1)).Nodup) (hv : Converted O vals vals') (rels : List Rel) (hrels : ∀ r, r ∈ rels ↔ ∃ x, A.link u r x)
    (ht : ∀ pre r post, rels = pre ++ r :: post → Left O A u pre r) :
    ∃ s', createRecycle O s u c (.ok vals) true rels = ⟨.ok (), s'⟩ ∧ s'.reg = s.reg ∧ s'.root = s.root ∧ Refines s' (renew A u c vals') ∧
      (renew A u c vals').Coherent O.inv := by
  obtain ⟨s1, h1, h2, h3, h4⟩ := unlink_succeeds hW h hco u rels ht
  have hc1 := coherent_cut hW hco u (fun q => ∃ r ∈ rels, O.subRel q r = true)
  obtain ⟨s2, k1, k2, k3, k4⟩ := change_oclass_exact hW h4 hc1 u (by rw [h2]; exact hu) c vals vals' hn hv
  rw [renew_of_cut hr hco u c vals' rels hrels] at k4
  refine ⟨s2, by simp only [createRecycle, hu, if_true, clear, h1, k1], k2.trans h2, k3.trans h3, k4, ?_⟩
  constructor
  · rintro a q b ⟨hl, ha, hb⟩
    exact ⟨hco.sym _ _ _ hl, hb, ha⟩
  · rintro a q b ⟨hl, ha, hb⟩
    simpa [renew, ha] using hco.src _ _ _ hl
  · rintro a q b ⟨hl, ha, hb⟩
    simpa [renew, hb] using hco.dst _ _ _ hl

/-- **C80, `create_recycle` may fail.** If a relationship has no link left, RuntimeError is raised: class and values are the old ones, some of the links are gone. -/
theorem recycle_fixing_fails (hW : O.WF) (h : Refines s A) (hco : A.Coherent O.inv) (u : Uid) (hu : u ∈ s.reg) (c : Cls) (kw : Values) (pre : List Rel) (r : Rel)
    (post : List Rel) (ht : ∀ p q l, pre = p ++ q :: l → Left O A u p q) (hr : ¬ Left O A u pre r) :
    ∃ s', createRecycle O s u c kw true (pre ++ r :: post) = ⟨.error .runtimeError, s'⟩ ∧ s'.reg = s.reg ∧ s'.root = s.root ∧
      Refines s' (cut O.inv A u (fun q => ∃ r ∈ pre, O.subRel q r = true)) := by
  obtain ⟨s1, h1, h2, h3, h4⟩ := unlink_fails hW h hco u pre r post ht hr
  exact ⟨s1, by simp only [createRecycle, hu, if_true, clear, h1], h2, h3, h4⟩

/-- No relationship of `u` is below another one of `u`, and `u` is not linked to itself: then nothing depends on the order, and recycling succeeds. -/
theorem unrelated_left (hr : Refl O) (u : Uid) (rels : List Rel) (hrels : ∀ r, r ∈ rels ↔ ∃ x, A.link u r x) (hnd : rels.Nodup)
    (hsep : ∀ q r x y, A.link u q x → A.link u r y → O.subRel q r = true → q = r) (hself : ∀ r, ¬ A.link u r u) :
    ∀ pre r post, rels = pre ++ r :: post → Left O A u pre r := by
  intro pre r post he
  obtain ⟨x, hx⟩ := (hrels r).1 (by simp [he])
  refine ⟨r, x, hx, hr r, fun e hm => ⟨?_, ?_⟩⟩
  · cases hs : O.subRel r e with
    | false => rfl
    | true =>
      obtain ⟨y, hy⟩ := (hrels e).1 (by simp [he, hm])
      have := hsep r e x y hx hy hs
      subst this
      rw [he, List.nodup_append] at hnd
      exact absurd rfl (hnd.2.2 r hm r (by simp))
  · rintro rfl
    exact absurd hx (hself r)

theorem foldl_remove {u : Uid} (rels : List Rel) (g : Graph) :
    (∀ t, t ∈ rels.foldl (fun g r => g.remove (some u) (some (.rel r)) none) g ↔ t ∈ g ∧ ¬ (t.s = u ∧ ∃ r ∈ rels, t.p = .rel r)) ∧
    (g.Nodup → (rels.foldl (fun g r => g.remove (some u) (some (.rel r)) none) g).Nodup) := by
  induction rels generalizing g with
  | nil => simp
  | cons r rs ih =>
    obtain ⟨h1, h2⟩ := ih (g.remove (some u) (some (.rel r)) none)
    refine ⟨fun t => ?_, fun h => h2 (nodup_gremove h)⟩
    rw [List.foldl_cons, h1, mem_gremove]
    simp only [Triple.matchesPat, Option.all_some, Option.all_none, Bool.and_true, Bool.and_eq_false_iff, decide_eq_false_iff_not, List.mem_cons, exists_eq_or_imp]
    constructor
    · rintro ⟨⟨ht, hne⟩, hn⟩
      refine ⟨ht, ?_⟩
      rintro ⟨hs, hp | hp⟩
      · rcases hne with hne | hne
        · exact hne hs.symm
        · exact hne hp.symm
      · exact hn ⟨hs, hp⟩
    · rintro ⟨ht, hn⟩
      refine ⟨⟨ht, ?_⟩, fun h => hn ⟨h.1, .inr h.2⟩⟩
      by_cases hs : u = t.s
      · right
        intro hp
        exact hn ⟨hs.symm, .inl hp.symm⟩
      · exact .inl hs

/-- An object without own links is told nothing. -/
theorem tell_alone (u : Uid) (c : Cls) (hno : neighborRels s.g u = []) : tellNeighbours O s u c = (.ok (), s.g) := by
  unfold tellNeighbours
  split
  · rfl
  · have : get O s u [] (some O.relationship) none = .ok [] := by
      simp [Cuds.get, getRaw, considerRels, hno, bind, Except.bind, loadCudsObjects, loadCudsObjects.go]
    rw [this]
    rfl

/-- **C80, `create_recycle` with `fix_neighbors=False` and a known uid.** Always succeeds (for values that can be converted); the neighbours keep their links to the object, the object
has none to them. -/
theorem recycle_keeping (h : Refines s A) (u : Uid) (hu : u ∈ s.reg) (c : Cls) (vals vals' : List (Attr × Val))
    (hn : (vals.map (·.1)).Nodup) (hv : Converted O vals vals') (rels : List Rel) (hrels : ∀ r, r ∈ rels ↔ ∃ x, A.link u r x) :
    ∃ s', createRecycle O s u c (.ok vals) false rels = ⟨.ok (), s'⟩ ∧ s'.reg = s.reg ∧ s'.root = s.root ∧ Refines s' (reclass A u c vals') := by
  obtain ⟨f1, f2⟩ := foldl_remove (u := u) rels s.g
  generalize hg : rels.foldl (fun g r => g.remove (some u) (some (.rel r)) none) s.g = g at f1 f2
  have hno : neighborRels g u = [] := by
    rw [List.eq_nil_iff_forall_not_mem]
    intro r hr
    obtain ⟨o, ho⟩ := mem_neighborRels.1 hr
    obtain ⟨ho, hne⟩ := (f1 _).1 ho
    rcases h.kinds _ ho with ⟨_, h1, _⟩ | ⟨_, _, h1, _⟩ | ⟨r', x, h1, h2⟩
    · cases h1
    · cases h1
    · simp only [Pred.rel.injEq] at h1 h2
      subst h1 h2
      exact hne ⟨rfl, r, (hrels r).2 ⟨x, (h.link _ _ _).1 ho⟩, rfl⟩
  have ht := tell_alone (O := O) (s := { s with g := g }) u c hno
  obtain ⟨g2, k1, k2, k3⟩ := storeValues_ok u vals vals' hv hn ((g.remove (some u) none none).add ⟨u, .type, .cls c⟩)
  refine ⟨{ s with g := g2 }, by simp only [createRecycle, hu, if_true, clear, hg, Bool.false_eq_true, if_false, changeOclass, ht, k1], rfl, rfl, ?_⟩
  refine reclass_refines h hu (by rw [converted_keys hv]; exact hn) rfl (k2 (nodup_gadd (nodup_gremove (f2 h.nodup)))) (fun t => ?_)
  rw [k3, mem_gadd, mem_gremove, f1]
  constructor
  · rintro (⟨ht | ⟨ht, hne⟩, _⟩ | ht)
    · exact .inr (.inl ht)
    · refine .inl ⟨ht.1, fun hs => ?_⟩
      simp [Triple.matchesPat, hs] at hne
    · exact .inr (.inr ht)
  · rintro (⟨ht, hs⟩ | ht | ht)
    · exact .inl ⟨.inr ⟨⟨ht, fun h => hs h.1⟩, by simp [Triple.matchesPat, Ne.symm hs]⟩, fun a _ ha => hs ha.1⟩
    · subst ht
      exact .inl ⟨.inl rfl, fun a _ ha => by cases ha.2⟩
    · exact .inr ht

theorem convAll_ok {vals vals' : List (Attr × Val)} (h : Converted O vals vals') : convAll O vals = .ok vals' := by
  induction vals generalizing vals' with
  | nil => cases vals' with
    | nil => rfl
    | cons _ _ => cases h
  | cons av l ih => cases vals' with
    | nil => cases h
    | cons aw l' =>
      obtain ⟨h1, h2, h3⟩ := h
      obtain ⟨a, w⟩ := aw
      simp only [convAll, h2, ih h3]
      simp only at h1
      rw [h1]

/-- **C80, `create_recycle` with a new uid** creates the object, whatever `fix_neighbors` is. -/
theorem recycle_new (h : Refines s A) (u : Uid) (hu : u ∉ s.reg) (h0 : u ≠ 0) (c : Cls) (vals vals' : List (Attr × Val)) (hn : (vals.map (·.1)).Nodup)
    (hv : Converted O vals vals') (fix : Bool) (rels : List Rel) :
    ∃ s', createRecycle O s u c (.ok vals) fix rels = ⟨.ok (), s'⟩ ∧ Refines s' (A.create u c vals') := by
  obtain ⟨h1, h2⟩ := create_sim h u c vals' hu h0 (by rw [converted_keys hv]; exact hn)
  refine ⟨_, ?_, h2⟩
  simp only [createRecycle, hu, if_false, createNew, h0, convAll_ok hv]
  rw [← h1]

/-- **C80, failing with a new uid** leaves the session as it is. -/
theorem recycle_new_fails (u : Uid) (hu : u ∉ s.reg) (c : Cls) (kw : Values) (fix : Bool) (rels : List Rel) (e : PyErr)
    (he : (createRecycle O s u c kw fix rels).res = .error e) : (createRecycle O s u c kw fix rels).st = s := by
  simp only [createRecycle, hu, if_false, createNew] at he ⊢
  split at he
  · rfl
  · split at he
    · simp_all
    · split at he
      · simp_all
      · simp_all [create]

end Osp.Recycle
