import Verif.Cuds.Spec
import Verif.Cuds.Lemmas
import Mathlib.Data.List.Forall2
/-! Simulation lemmas: each API call acts on the represented view as its specification says. -/
namespace Osp.Cuds

theorem mem_neighborRels_ref {s : Sess} {A : Abs} (h : Refines s A) {u : Uid} {r : Rel} :
    r ∈ neighborRels s.g u ↔ ∃ x, A.link u r x := by
  rw [mem_neighborRels]
  constructor
  · rintro ⟨o, ho⟩
    rcases h.kinds _ ho with ⟨c, h1, h2⟩ | ⟨a, v, h1, h2⟩ | ⟨r', x, h1, h2⟩
    · cases h1
    · cases h1
    · simp only at h2; subst h2; exact ⟨x, (h.link _ _ _).1 ho⟩
  · rintro ⟨x, hx⟩; exact ⟨_, (h.link _ _ _).2 hx⟩

theorem mem_targets_ref {s : Sess} {A : Abs} (h : Refines s A) {u : Uid} {r : Rel} {x : Uid} :
    x ∈ targets s.g u r ↔ A.link u r x := by rw [mem_targets, h.link]

theorem clsOk_ref {s : Sess} {A : Abs} (h : Refines s A) {O : Onto} {oc : Option Cls} {x : Uid} :
    clsOk O s.g oc x ↔ ∀ c, oc = some c → ∃ c', A.cls x = some c' ∧ O.subCls c' c = true := by
  unfold clsOk
  constructor
  · intro k c hc
    obtain ⟨t, ht, hs⟩ := k c hc
    exact ⟨t, (h.type _ _).1 (mem_oclasses.1 ht), hs⟩
  · intro k c hc
    obtain ⟨t, ht, hs⟩ := k c hc
    exact ⟨t, mem_oclasses.2 ((h.type _ _).2 ht), hs⟩

/-- Congruence: a graph with the right members represents the view. -/
theorem refines_of_mem {s s' : Sess} {A A' : Abs} (h : Refines s A) (hn : s'.g.Nodup)
    (hreg : ∀ u, u ∈ s'.reg ↔ A'.cls u ≠ none)
    (ht : ∀ u c, (⟨u, .type, .cls c⟩ : Triple) ∈ s'.g ↔ A'.cls u = some c)
    (ha : ∀ u a v, (⟨u, .attr a, .val v⟩ : Triple) ∈ s'.g ↔ A'.attr u a = some v)
    (hl : ∀ u r x, (⟨u, .rel r, .cuds x⟩ : Triple) ∈ s'.g ↔ A'.link u r x)
    (hk : ∀ t ∈ s'.g, t ∈ s.g ∨ (∃ c, t.p = .type ∧ t.o = .cls c) ∨ (∃ a v, t.p = .attr a ∧ t.o = .val v) ∨ (∃ r x, t.p = .rel r ∧ t.o = .cuds x))
    (ho : ∀ u a, A'.attr u a ≠ none → A'.cls u ≠ none) : Refines s' A' where
  nodup := hn
  reg := hreg
  type := ht
  attr := ha
  link := hl
  owned := ho
  kinds t hm := by
    rcases hk t hm with h' | h'
    · exact h.kinds t h'
    · exact h'

/-! ### add -/

theorem refines_connect_one {O : Onto} {s : Sess} {A : Abs} (h : Refines s A) (self x : Uid) (r : Rel) :
    Refines { s with g := addInverse O (addDirect s.g self x r) x self r } (A.connect O.inv self r [x]) := by
  apply refines_of_mem h
  · exact nodup_addDirect (nodup_addDirect h.nodup)
  · exact h.reg
  · intro u c; simp only [addInverse, mem_addDirect, Abs.connect]; simp [h.type]
  · intro u a v; simp only [addInverse, mem_addDirect, Abs.connect]; simp [h.attr]
  · intro u q y
    simp only [addInverse, mem_addDirect, Abs.connect, h.link, Triple.mk.injEq, Pred.rel.injEq, Obj.cuds.injEq, List.mem_singleton]
    constructor
    · rintro (⟨rfl, rfl, rfl⟩ | ⟨rfl, rfl, rfl⟩ | h)
      · exact Or.inr (Or.inr ⟨rfl, rfl, rfl⟩)
      · exact Or.inr (Or.inl ⟨rfl, rfl, rfl⟩)
      · exact Or.inl h
    · rintro (h | ⟨rfl, rfl, rfl⟩ | ⟨rfl, rfl, rfl⟩)
      · exact Or.inr (Or.inr h)
      · exact Or.inr (Or.inl ⟨rfl, rfl, rfl⟩)
      · exact Or.inl ⟨rfl, rfl, rfl⟩
  · intro t ht
    simp only [addInverse, mem_addDirect] at ht
    rcases ht with rfl | rfl | ht
    · exact Or.inr (Or.inr (Or.inr ⟨_, _, rfl, rfl⟩))
    · exact Or.inr (Or.inr (Or.inr ⟨_, _, rfl, rfl⟩))
    · exact Or.inl ht
  · exact h.owned

theorem connect_cons (inv : Rel → Rel) (A : Abs) (self : Uid) (r : Rel) (x : Uid) (xs : List Uid) :
    (A.connect inv self r [x]).connect inv self r xs = A.connect inv self r (x :: xs) := by
  unfold Abs.connect
  congr 1
  funext a q b
  simp only [List.mem_cons, List.not_mem_nil, or_false, eq_iff_iff]
  constructor
  · rintro ((h | ⟨a, b, c⟩ | ⟨a, b, c⟩) | ⟨a, b, c⟩ | ⟨a, b, c⟩)
    · exact Or.inl h
    · exact Or.inr (Or.inl ⟨a, b, Or.inl c⟩)
    · exact Or.inr (Or.inr ⟨a, b, Or.inl c⟩)
    · exact Or.inr (Or.inl ⟨a, b, Or.inr c⟩)
    · exact Or.inr (Or.inr ⟨a, b, Or.inr c⟩)
  · rintro (h | ⟨a, b, c | c⟩ | ⟨a, b, c | c⟩)
    · exact Or.inl (Or.inl h)
    · exact Or.inl (Or.inr (Or.inl ⟨a, b, c⟩))
    · exact Or.inr (Or.inl ⟨a, b, c⟩)
    · exact Or.inl (Or.inr (Or.inr ⟨a, b, c⟩))
    · exact Or.inr (Or.inr ⟨a, b, c⟩)

theorem connect_nil (inv : Rel → Rel) (A : Abs) (self : Uid) (r : Rel) : A.connect inv self r [] = A := by
  unfold Abs.connect
  simp

theorem addLoop_sim {O : Onto} (self : Uid) (r : Rel) (args : List Uid) (s : Sess) (A : Abs) (h : Refines s A) :
    ∃ pre post, args = pre ++ post ∧
      Refines { s with g := (addLoop O self r args s.g).2 } (A.connect O.inv self r pre) ∧
      pre.Nodup ∧ (∀ x ∈ pre, ¬ A.link self r x) ∧
      ((addLoop O self r args s.g).1 = .ok () ∧ post = [] ∨
       (addLoop O self r args s.g).1 = .error .valueError ∧ ∃ x post', post = x :: post' ∧ (A.link self r x ∨ x ∈ pre)) := by
  induction args generalizing s A with
  | nil => exact ⟨[], [], rfl, by rw [connect_nil]; exact h, by simp, by simp, Or.inl ⟨rfl, rfl⟩⟩
  | cons x xs ih =>
    unfold addLoop
    by_cases hx : A.link self r x
    · rw [if_pos ⟨(mem_neighborRels_ref h).2 ⟨x, hx⟩, (mem_targets_ref h).2 hx⟩]
      exact ⟨[], x :: xs, rfl, by rw [connect_nil]; exact h, by simp, by simp, Or.inr ⟨rfl, x, xs, rfl, Or.inl hx⟩⟩
    · rw [if_neg (fun hh => hx ((mem_targets_ref h).1 hh.2))]
      have h1 := refines_connect_one (O := O) h self x r
      obtain ⟨pre, post, rfl, h2, h3, h4, h5⟩ := ih _ _ h1
      have hxpre : x ∉ pre := fun hm => h4 x hm (Or.inr (Or.inl ⟨rfl, rfl, by simp⟩))
      refine ⟨x :: pre, post, rfl, ?_, ?_, ?_, ?_⟩
      · rw [← connect_cons]; exact h2
      · exact List.nodup_cons.2 ⟨hxpre, h3⟩
      · intro y hy
        rcases List.mem_cons.1 hy with rfl | hy
        · exact hx
        · intro hl; exact h4 y hy (Or.inl hl)
      · rcases h5 with h5 | ⟨h5, y, post', h6, h7⟩
        · exact Or.inl h5
        · refine Or.inr ⟨h5, y, post', h6, ?_⟩
          rcases h7 with (h7 | ⟨_, _, h7⟩ | ⟨rfl, _, h7⟩) | h7
          · exact Or.inl h7
          · exact Or.inr (by simp at h7; simp [h7])
          · exact Or.inr (by simp at h7; simp [h7])
          · exact Or.inr (by simp [h7])

/-! ### `_get` -/

/-- The mapping `_get` computes is exactly the selected links. -/
theorem getRaw_spec {O : Onto} {s : Sess} {A : Abs} (h : Refines s A) (self : Uid) (uids : List Uid) (rel : Option Rel)
    (oc : Option Cls) (hargs : uids = [] ∨ oc = none) :
    ∃ us m, getRaw O s.g self uids rel oc = .ok (us, m) ∧ (m.map (·.1)).Nodup ∧ m.NonEmpty ∧
      (∀ x r, m.Has x r ↔ A.link self r x ∧ A.selects O uids rel oc r x) ∧
      (uids = [] → us = (m.map (·.1)).map some) ∧
      (uids ≠ [] → List.Forall₂ (fun u o => (o = some u ∧ ∃ r, m.Has u r) ∨ (o = none ∧ ¬ ∃ r, m.Has u r)) uids us) := by
  unfold getRaw
  rw [if_neg (by rintro ⟨h1, h2⟩; rcases hargs with h' | h' <;> simp_all)]
  simp only
  have hcons : ∀ r, r ∈ considerRels O s.g self rel ↔
      (∃ x, A.link self r x) ∧ ∀ r', rel = some r' → O.subRel r r' = true := by
    intro r
    cases rel with
    | none => simp [considerRels, mem_neighborRels_ref h]
    | some r0 => simp [considerRels, mem_neighborRels_ref h]
  revert hcons
  generalize considerRels O s.g self rel = cons
  intro hcons
  split
  · rename_i he
    refine ⟨_, _, rfl, by simp, (by intro u rs h; cases h), ?_, ?_, ?_⟩
    · intro x r
      constructor
      · rintro ⟨rs, h1, _⟩; cases h1
      · rintro ⟨h1, _, h2, _⟩
        have := (hcons r).2 ⟨⟨x, h1⟩, h2⟩
        rw [he] at this
        cases this
    · rintro rfl; rfl
    · intro _
      clear hargs
      induction uids with
      | nil => exact .nil
      | cons u us ih =>
        rw [List.map_cons, List.forall₂_cons]
        refine ⟨Or.inr ⟨rfl, ?_⟩, ?_⟩
        · rintro ⟨r, rs, h1, _⟩; cases h1
        · cases us with
          | nil => simp
          | cons _ _ => exact ih (by simp)
  · rename_i he
    by_cases hu : uids = []
    · subst hu
      simp only [ne_eq, not_true_eq_false, ↓reduceIte]
      obtain ⟨⟨h1, h2⟩, h3⟩ := getByOclass_spec O s.g self oc cons
      refine ⟨_, _, rfl, h1, h2, ?_, ?_, by simp⟩
      · intro x r
        rw [h3, hcons, mem_targets_ref h, clsOk_ref h]
        constructor
        · rintro ⟨⟨_, a⟩, b, c⟩; exact ⟨b, Or.inl rfl, a, c⟩
        · rintro ⟨b, _, a, c⟩; exact ⟨⟨⟨x, b⟩, a⟩, b, c⟩
      · intro _; rfl
    · simp only [ne_eq, hu, not_false_eq_true, ↓reduceIte]
      have hoc : oc = none := hargs.resolve_left hu
      subst hoc
      obtain ⟨h0, ⟨h1, h2⟩, h3⟩ := getByUids_spec s.g self uids cons
      refine ⟨(getByUids s.g self uids cons).1, (getByUids s.g self uids cons).2, rfl, h1, h2, ?_, fun e => e.elim, ?_⟩
      · intro x r
        rw [h3, hcons, mem_targets_ref h]
        constructor
        · rintro ⟨⟨_, a⟩, b, c⟩; exact ⟨c, Or.inr b, a, by simp⟩
        · rintro ⟨c, b, a, _⟩; exact ⟨⟨⟨x, c⟩, a⟩, b.resolve_left hu, c⟩
      · intro _
        rw [h0]
        have key : ∀ l : List Uid, (∀ u ∈ l, u ∈ uids) → List.Forall₂
            (fun u o => (o = some u ∧ ∃ r, (getByUids s.g self uids cons).2.Has u r) ∨
              (o = none ∧ ¬ ∃ r, (getByUids s.g self uids cons).2.Has u r)) l
            (l.map (fun u => if ∃ r ∈ cons, u ∈ targets s.g self r then some u else none)) := by
          intro l hl
          induction l with
          | nil => simp
          | cons u us ih =>
            simp only [List.map_cons, List.forall₂_cons]
            refine ⟨?_, ih (fun v hv => hl v (by simp [hv]))⟩
            have hu' : u ∈ uids := hl u (by simp)
            have hiff : (∃ r ∈ cons, u ∈ targets s.g self r) ↔ ∃ r, (getByUids s.g self uids cons).2.Has u r := by
              simp only [h3, hu', true_and]
            by_cases hex : ∃ r ∈ cons, u ∈ targets s.g self r
            · exact Or.inl ⟨if_pos hex, hiff.1 hex⟩
            · exact Or.inr ⟨if_neg hex, fun hh => hex (hiff.2 hh)⟩
        exact key uids (fun _ h => h)

/-! ### remove -/

theorem remove_sim {O : Onto} {s : Sess} {A : Abs} (h : Refines s A)
    (self : Uid) (uids : List Uid) (rel : Option Rel) (oc : Option Cls) (hargs : uids = [] ∨ oc = none)
    (hreg : ∀ r x, A.link self r x → A.cls x ≠ none) :
    ((∃ r x, A.link self r x ∧ A.selects O uids rel oc r x) → (remove O s self uids rel oc).res = .ok ()) ∧
    ((¬ ∃ r x, A.link self r x ∧ A.selects O uids rel oc r x) → (remove O s self uids rel oc).res = .error .runtimeError) ∧
    Refines (remove O s self uids rel oc).st (A.disconnect O.inv self (A.selects O uids rel oc)) := by
  obtain ⟨us, m, he, hn, hne, hm, _, _⟩ := getRaw_spec (O := O) h self uids rel oc hargs
  unfold remove
  rw [he]
  simp only
  by_cases hm0 : m = []
  · have hno : ¬ ∃ r x, A.link self r x ∧ A.selects O uids rel oc r x := by
      rintro ⟨r, x, hh⟩
      obtain ⟨rs, h1, _⟩ := (hm x r).2 hh
      rw [hm0] at h1
      cases h1
    rw [if_pos hm0]
    refine ⟨fun hh => absurd hh hno, fun _ => rfl, ?_⟩
    have : A.disconnect O.inv self (A.selects O uids rel oc) = A := by
      unfold Abs.disconnect
      congr 1
      funext a q b
      simp only [eq_iff_iff]
      constructor
      · exact fun h => h.1
      · intro hl
        refine ⟨hl, ?_, ?_⟩
        · rintro ⟨_, h1, h2⟩; exact hno ⟨q, b, h1, h2⟩
        · rintro ⟨_, r, _, h1, h2⟩; exact hno ⟨r, a, h1, h2⟩
    rw [this]
    exact h
  · have hyes : ∃ r x, A.link self r x ∧ A.selects O uids rel oc r x := by
      cases m with
      | nil => exact absurd rfl hm0
      | cons e m =>
        obtain ⟨x, rs⟩ := e
        cases rs with
        | nil => exact absurd rfl (hne x [] (by simp))
        | cons r rs => exact ⟨r, x, (hm x r).1 ⟨r :: rs, by simp, by simp⟩⟩
    rw [if_neg hm0]
    obtain ⟨k1, k2, k3⟩ := removeLoop_spec O s.reg self m s.g
      (fun u r hh => (h.reg u).2 (hreg r u ((hm u r).1 hh).1)) hne
    refine ⟨fun _ => k1, fun hh => absurd hyes hh, ?_⟩
    apply refines_of_mem h
    · exact k2 h.nodup
    · exact h.reg
    · intro u c; rw [k3]; simp [h.type, Abs.disconnect]
    · intro u c v; rw [k3]; simp [h.attr, Abs.disconnect]
    · intro u q y
      rw [k3]
      simp only [h.link, Abs.disconnect, ne_eq, Triple.mk.injEq, Pred.rel.injEq, Obj.cuds.injEq]
      constructor
      · rintro ⟨hl, hno⟩
        refine ⟨hl, ?_, ?_⟩
        · rintro ⟨rfl, h1, h2⟩
          exact (hno y q ((hm y q).2 ⟨h1, h2⟩)).1 ⟨rfl, rfl, rfl⟩
        · rintro ⟨rfl, r, rfl, h1, h2⟩
          exact (hno u r ((hm u r).2 ⟨h1, h2⟩)).2 ⟨rfl, rfl, rfl⟩
      · rintro ⟨hl, h1, h2⟩
        refine ⟨hl, ?_⟩
        intro x r hh
        have := (hm x r).1 hh
        refine ⟨?_, ?_⟩
        · rintro ⟨rfl, rfl, rfl⟩; exact h1 ⟨rfl, this.1, this.2⟩
        · rintro ⟨rfl, rfl, rfl⟩; exact h2 ⟨rfl, r, rfl, this.1, this.2⟩
    · intro t ht
      exact Or.inl ((k3 t).1 ht).1
    · exact h.owned

/-! ### create, setAttr, delete -/

theorem foldl_gadd (ts : List Triple) (g : Graph) :
    (∀ t, t ∈ ts.foldl Graph.add g ↔ t ∈ g ∨ t ∈ ts) ∧ (g.Nodup → (ts.foldl Graph.add g).Nodup) := by
  induction ts generalizing g with
  | nil => simp
  | cons x xs ih =>
    refine ⟨?_, fun h => (ih _).2 (nodup_gadd h)⟩
    intro t
    rw [List.foldl_cons, (ih _).1]
    simp only [mem_gadd, List.mem_cons]
    constructor
    · rintro ((h | h) | h)
      · exact Or.inr (Or.inl h)
      · exact Or.inl h
      · exact Or.inr (Or.inr h)
    · rintro (h | h | h)
      · exact Or.inl (Or.inr h)
      · exact Or.inl (Or.inl h)
      · exact Or.inr h

theorem mem_iff_lookup {vals : List (Attr × Val)} (hn : (vals.map (·.1)).Nodup) {a : Attr} {v : Val} :
    (a, v) ∈ vals ↔ vals.lookup a = some v := by
  induction vals with
  | nil => simp
  | cons e vals ih =>
    obtain ⟨a', v'⟩ := e
    simp only [List.map_cons, List.nodup_cons] at hn
    rw [List.lookup_cons, List.mem_cons, Prod.mk.injEq, ih hn.2]
    by_cases h : a = a'
    · subst h
      simp only [true_and, BEq.rfl]
      constructor
      · rintro (h | h)
        · rw [h]
        · exact absurd (List.mem_map.2 ⟨_, (ih hn.2).2 h, rfl⟩) hn.1
      · intro h; exact Or.inl (Option.some.inj h).symm
    · have : (a == a') = false := by simpa using h
      simp [this, h]

theorem create_sim {s : Sess} {A : Abs} (h : Refines s A) (u : Uid) (c : Cls)
    (vals : List (Attr × Val)) (hu : u ∉ s.reg) (hu0 : u ≠ 0) (hv : (vals.map (·.1)).Nodup) :
    (create s u c vals).res = .ok () ∧ Refines (create s u c vals).st (A.create u c vals) := by
  unfold create
  rw [if_neg hu0]
  refine ⟨rfl, ?_⟩
  simp only
  have hnone : A.cls u = none := by
    rcases hcl : A.cls u with _ | _
    · rfl
    · exact absurd ((h.reg u).2 (by simp [hcl])) hu
  have hnoattr : ∀ a, A.attr u a = none := by
    intro a
    rcases ha : A.attr u a with _ | _
    · rfl
    · exact absurd hnone (h.owned u a (by simp [ha]))
  obtain ⟨f1, f2⟩ := foldl_gadd (vals.map (fun av => (⟨u, .attr av.1, .val av.2⟩ : Triple)) ++ [⟨u, .type, .cls c⟩]) s.g
  apply refines_of_mem h
  · exact f2 h.nodup
  · intro v
    simp only [hu, ↓reduceIte, List.mem_append, List.mem_singleton, h.reg, Abs.create]
    split
    · rename_i hvu; simp [hvu]
    · rename_i hvu; simp [hvu]
  · intro v c'
    rw [f1]
    simp only [h.type, List.mem_append, List.mem_map, Triple.mk.injEq, List.mem_singleton, Abs.create]
    split
    · rename_i hvu; subst hvu; simp [hnone, eq_comm]
    · rename_i hvu; simp [hvu]
  · intro v a w
    rw [f1]
    simp only [h.attr, List.mem_append, List.mem_map, Triple.mk.injEq, List.mem_singleton, Abs.create]
    split
    · rename_i hvu
      subst hvu
      simp only [hnoattr, reduceCtorEq, false_or, true_and, Pred.attr.injEq, Obj.val.injEq, and_false, or_false,
        ← mem_iff_lookup hv]
      constructor
      · rintro ⟨⟨a', w'⟩, hm, rfl, rfl⟩; exact hm
      · intro hm; exact ⟨_, hm, rfl, rfl⟩
    · rename_i hvu
      have : ¬ u = v := fun e => hvu e.symm
      simp [hvu, this]
  · intro v r x
    rw [f1]
    simp [h.link, Abs.create]
  · intro t ht
    rw [f1] at ht
    rcases ht with ht | ht
    · exact Or.inl ht
    · rcases List.mem_append.1 ht with ht | ht
      · obtain ⟨av, _, rfl⟩ := List.mem_map.1 ht
        exact Or.inr (Or.inr (Or.inl ⟨_, _, rfl, rfl⟩))
      · simp only [List.mem_singleton] at ht
        subst ht
        exact Or.inr (Or.inl ⟨_, rfl, rfl⟩)
  · intro v a
    simp only [Abs.create]
    split
    · simp
    · exact h.owned v a

theorem mem_gset {g : Graph} {t t' : Triple} : t ∈ g.set t' ↔ t = t' ∨ (t ∈ g ∧ ¬ (t.s = t'.s ∧ t.p = t'.p)) := by
  unfold Graph.set
  rw [mem_gadd, mem_gremove, Bool.eq_false_iff, ne_eq, matchesPat_iff]
  simp only [Option.some.injEq, forall_eq', reduceCtorEq, false_implies, implies_true, and_true]
  constructor
  · rintro (h | ⟨h1, h2⟩)
    · exact Or.inl h
    · exact Or.inr ⟨h1, fun ⟨a, b⟩ => h2 ⟨a.symm, b.symm⟩⟩
  · rintro (h | ⟨h1, h2⟩)
    · exact Or.inl h
    · exact Or.inr ⟨h1, fun ⟨a, b⟩ => h2 ⟨a.symm, b.symm⟩⟩

theorem oclass_ref {s : Sess} {A : Abs} (h : Refines s A) (u : Uid) : oclass s.g u = A.cls u := by
  unfold oclass
  have key : ∀ c, c ∈ oclasses s.g u ↔ A.cls u = some c := fun c => by rw [mem_oclasses, h.type]
  cases hl : oclasses s.g u with
  | nil =>
    cases hc : A.cls u with
    | none => rfl
    | some c => have := (key c).2 hc; rw [hl] at this; cases this
  | cons c cs => rw [List.head?_cons, ← (key c).1 (by rw [hl]; simp)]

theorem setAttr_sim {O : Onto} {s : Sess} {A : Abs} (h : Refines s A) (u : Uid) (a : Attr) (v : Val) (c : Cls) (hc : A.cls u = some c) :
    (a ∉ O.attrs c → (setAttr O s u a v) = ⟨.error .attributeError, s⟩) ∧
    (a ∈ O.attrs c → O.conv a v = none → (setAttr O s u a v) = ⟨.error .valueError, s⟩) ∧
    (∀ v', a ∈ O.attrs c → O.conv a v = some v' →
      (setAttr O s u a v).res = .ok () ∧ Refines (setAttr O s u a v).st (A.setAttr u a v')) := by
  unfold setAttr
  rw [oclass_ref h, hc]
  simp only
  refine ⟨?_, ?_, ?_⟩
  · intro ha; rw [if_pos ha]
  · intro ha hv; rw [if_neg (by simpa using ha), hv]
  · intro v' ha hv
    rw [if_neg (by simpa using ha), hv]
    refine ⟨rfl, ?_⟩
    apply refines_of_mem h
    · exact nodup_gadd (nodup_gremove h.nodup)
    · exact h.reg
    · intro w c'; simp [mem_gset, h.type, Abs.setAttr]
    · intro w b x
      simp only [mem_gset, h.attr, Abs.setAttr, Triple.mk.injEq, Pred.attr.injEq, Obj.val.injEq]
      split
      · rename_i hw; simp [hw, eq_comm]
      · rename_i hw
        constructor
        · rintro (⟨a, b, _⟩ | ⟨h, _⟩)
          · exact absurd ⟨a, b⟩ hw
          · exact h
        · intro h; exact Or.inr ⟨h, hw⟩
    · intro w r x; simp [mem_gset, h.link, Abs.setAttr]
    · intro t ht
      rw [mem_gset] at ht
      rcases ht with rfl | ht
      · exact Or.inr (Or.inr (Or.inl ⟨_, _, rfl, rfl⟩))
      · exact Or.inl ht.1
    · intro w b
      simp only [Abs.setAttr]
      split
      · rename_i hw; intro _; rw [hw.1, hc]; simp
      · exact h.owned w b

theorem getAttr_ref {O : Onto} {s : Sess} {A : Abs} (h : Refines s A) (u : Uid) (a : Attr) (c : Cls) (hc : A.cls u = some c) :
    getAttr O s u a = if a ∈ O.attrs c then (match A.attr u a with | some v => .ok v | none => .error .attributeError)
      else .error .attributeError := by
  unfold getAttr
  rw [oclass_ref h, hc]
  simp only
  by_cases ha : a ∈ O.attrs c
  · simp only [ha, not_true_eq_false, ↓reduceIte]
    have key : ∀ t, t ∈ s.g.triples (some u) (some (.attr a)) none ↔ ∃ v, t = ⟨u, .attr a, .val v⟩ ∧ A.attr u a = some v := by
      intro t
      rw [mem_gtriples, matchesPat_iff]
      constructor
      · rintro ⟨ht, h1, h2, _⟩
        have h1 := h1 _ rfl
        have h2 := h2 _ rfl
        rcases h.kinds t ht with ⟨_, hp, _⟩ | ⟨a', v, hp, ho⟩ | ⟨_, _, hp, _⟩
        · rw [hp] at h2; cases h2
        · rw [hp] at h2
          cases h2
          obtain ⟨ts, tp, t3⟩ := t
          simp only at h1 hp ho
          subst h1 hp ho
          exact ⟨v, rfl, (h.attr _ _ _).1 ht⟩
        · rw [hp] at h2; cases h2
      · rintro ⟨v, rfl, hv⟩
        exact ⟨(h.attr _ _ _).2 hv, by simp⟩
    cases hl : s.g.triples (some u) (some (.attr a)) none with
    | nil =>
      cases hv : A.attr u a with
      | none => simp
      | some v => have := (key _).2 ⟨v, rfl, hv⟩; rw [hl] at this; cases this
    | cons t ts =>
      obtain ⟨v, rfl, hv⟩ := (key t).1 (by rw [hl]; simp)
      simp [hv]
  · simp [ha]

theorem deleteTriples_ref {s : Sess} {A : Abs} (h : Refines s A) (u : Uid) (hno : ∀ r a, ¬ A.link a r u) :
    Refines (deleteTriples s u) (A.delete u) := by
  have hm : ∀ t, t ∈ (deleteTriples s u).g ↔ t ∈ s.g ∧ t.s ≠ u := by
    intro t
    simp only [deleteTriples, mem_gremove, Bool.eq_false_iff, ne_eq, matchesPat_iff]
    simp [eq_comm]
  apply refines_of_mem h
  · exact nodup_gremove h.nodup
  · intro v
    simp only [deleteTriples, List.mem_filter, h.reg, Abs.delete]
    split
    · rename_i hv; simp [hv]
    · rename_i hv; simp [hv]
  · intro v c
    rw [hm]
    simp only [h.type, Abs.delete]
    split
    · rename_i hv; simp [hv]
    · rename_i hv; simp [hv]
  · intro v a w
    rw [hm]
    simp only [h.attr, Abs.delete]
    split
    · rename_i hv; simp [hv]
    · rename_i hv; simp [hv]
  · intro v r x
    rw [hm]
    simp only [h.link, Abs.delete]
    constructor
    · rintro ⟨hl, hv⟩
      exact ⟨hl, hv, fun e => hno r v (e ▸ hl)⟩
    · rintro ⟨hl, hv, _⟩; exact ⟨hl, hv⟩
  · intro t ht; exact Or.inl ((hm t).1 ht).1
  · intro v a
    simp only [Abs.delete]
    split
    · simp
    · exact h.owned v a

theorem filter_nil_of {A : Abs} {O : Onto} (hW : O.WF) (r : Rel) (x : Uid) :
    A.selects O [] (some O.relationship) none r x :=
  ⟨Or.inl rfl, fun r' hr => by cases hr; exact hW.top r, by simp⟩

theorem delete_sim {O : Onto} (hW : O.WF) {s : Sess} {A : Abs} (h : Refines s A) (hco : A.Coherent O.inv) (u : Uid) :
    (delete O s u).res = .ok () ∧ Refines (delete O s u).st (A.delete u) := by
  have hsel := filter_nil_of (A := A) hW
  obtain ⟨us, m, he, hn, hne, hm, hus, _⟩ := getRaw_spec (O := O) h u [] (some O.relationship) none (Or.inl rfl)
  unfold delete get
  rw [he]
  simp only [bind, Except.bind]
  rw [loadCudsObjects_eq]
  by_cases hex : ∃ r x, A.link u r x
  · obtain ⟨r, x, hx⟩ := hex
    have hne' : (us.map (fun o => o.bind fun u => if u ∈ s.reg then some u else none)) ≠ [] := by
      rw [hus rfl]
      obtain ⟨rs, h1, _⟩ := (hm x r).2 ⟨hx, hsel r x⟩
      cases m with
      | nil => cases h1
      | cons _ _ => simp
    rw [if_pos hne']
    obtain ⟨h1, _, h2⟩ := remove_sim (O := O) h u [] (some O.relationship) none (Or.inl rfl) (fun r x hl => hco.dst u r x hl)
    replace h1 := h1 ⟨r, x, hx, hsel r x⟩
    generalize remove O s u [] (some O.relationship) none = R at h1 h2
    obtain ⟨res, s'⟩ := R
    simp only at h1 h2
    subst h1
    refine ⟨rfl, ?_⟩
    simp only
    have h3 := deleteTriples_ref h2 u (by
      rintro q a ⟨hl, hA, hB⟩
      exact hB ⟨rfl, O.inv q, hW.inv_inv q, hco.sym _ _ _ hl, hsel _ _⟩)
    have : (A.disconnect O.inv u (A.selects O [] (some O.relationship) none)).delete u = A.delete u := by
      unfold Abs.disconnect Abs.delete
      simp only
      congr 1
      funext a q b
      simp only [eq_iff_iff]
      constructor
      · rintro ⟨⟨hl, _⟩, h1, h2⟩; exact ⟨hl, h1, h2⟩
      · rintro ⟨hl, h1, h2⟩; exact ⟨⟨hl, fun hh => h1 hh.1, fun hh => h2 hh.1⟩, h1, h2⟩
    rw [this] at h3
    exact h3
  · have hm0 : m = [] := by
      cases m with
      | nil => rfl
      | cons e m =>
        obtain ⟨x, rs⟩ := e
        cases rs with
        | nil => exact absurd rfl (hne x [] (by simp))
        | cons r rs => exact absurd ⟨r, x, ((hm x r).1 ⟨r :: rs, by simp, by simp⟩).1⟩ hex
    rw [hus rfl, hm0]
    simp only [List.map_nil, ne_eq, not_true_eq_false, ↓reduceIte, true_and]
    exact deleteTriples_ref h u (fun q a hl => hex ⟨O.inv q, a, hco.sym _ _ _ hl⟩)

/-! ### coherence is preserved -/

theorem coherent_connect {inv : Rel → Rel} (hinv : ∀ r, inv (inv r) = r) {A : Abs} (h : A.Coherent inv) (self : Uid) (r : Rel)
    (xs : List Uid) (hs : A.cls self ≠ none) (hx : ∀ x ∈ xs, A.cls x ≠ none) : (A.connect inv self r xs).Coherent inv where
  sym := by
    rintro a q b (hl | ⟨rfl, rfl, hb⟩ | ⟨rfl, rfl, ha⟩)
    · exact Or.inl (h.sym _ _ _ hl)
    · exact Or.inr (Or.inr ⟨rfl, rfl, hb⟩)
    · exact Or.inr (Or.inl ⟨rfl, hinv r, ha⟩)
  src := by
    rintro a q b (hl | ⟨rfl, rfl, hb⟩ | ⟨rfl, rfl, ha⟩)
    · exact h.src _ _ _ hl
    · exact hs
    · exact hx _ ha
  dst := by
    rintro a q b (hl | ⟨rfl, rfl, hb⟩ | ⟨rfl, rfl, ha⟩)
    · exact h.dst _ _ _ hl
    · exact hx _ hb
    · exact hs

theorem coherent_disconnect {inv : Rel → Rel} (hinv : ∀ r, inv (inv r) = r) {A : Abs} (h : A.Coherent inv) (self : Uid)
    (sel : Rel → Uid → Prop) : (A.disconnect inv self sel).Coherent inv where
  sym := by
    rintro a q b ⟨hl, h1, h2⟩
    refine ⟨h.sym _ _ _ hl, ?_, ?_⟩
    · rintro ⟨rfl, h3, h4⟩
      exact h2 ⟨rfl, inv q, hinv q, h3, h4⟩
    · rintro ⟨rfl, r, hr, h3, h4⟩
      have : r = q := by rw [← hinv r, hr, hinv]
      subst this
      exact h1 ⟨rfl, h3, h4⟩
  src := fun a q b hl => h.src a q b hl.1
  dst := fun a q b hl => h.dst a q b hl.1

theorem coherent_create {inv : Rel → Rel} {A : Abs} (h : A.Coherent inv) (u : Uid) (c : Cls) (vals : List (Attr × Val)) :
    (A.create u c vals).Coherent inv where
  sym := h.sym
  src := by intro a q b hl; simp only [Abs.create]; split <;> [simp; exact h.src a q b hl]
  dst := by intro a q b hl; simp only [Abs.create]; split <;> [simp; exact h.dst a q b hl]

theorem coherent_delete {inv : Rel → Rel} {A : Abs} (h : A.Coherent inv) (u : Uid) : (A.delete u).Coherent inv where
  sym := fun a q b hl => ⟨h.sym a q b hl.1, hl.2.2, hl.2.1⟩
  src := by intro a q b hl; simp only [Abs.delete, hl.2.1, ↓reduceIte]; exact h.src a q b hl.1
  dst := by intro a q b hl; simp only [Abs.delete, hl.2.2, ↓reduceIte]; exact h.dst a q b hl.1

end Osp.Cuds
