import Verif.Onto.InvLemmas
import Mathlib.Tactic.Tauto
/-!
# Theorems about attributes: C32 (datatype), C33 (constructor arguments), C61 (inherited attributes)
-/
namespace Osp.Onto

variable {I : Type} [DecidableEq I]

/-! ### C32 -/

/-- `d` is a non trivial range stated for one of the super attributes. -/
def IsRange (ranges : List ((Node I) × (Node I))) (literal : Node I) (supers : List (Node I)) (d : Node I) : Prop :=
  d ≠ literal ∧ ∃ s ∈ supers, (s, d) ∈ ranges

theorem mem_foldl_addSet {α : Type} [DecidableEq α] : ∀ (xs acc : List α) (y : α), y ∈ xs.foldl addSet acc ↔ y ∈ acc ∨ y ∈ xs := by
  intro xs
  induction xs with
  | nil => intro acc y; simp
  | cons x xs ih => intro acc y; rw [List.foldl_cons, ih, mem_addSet, List.mem_cons, or_assoc]

theorem nodup_addSet {α : Type} [DecidableEq α] {l : List α} (h : l.Nodup) (x : α) : (addSet l x).Nodup := by
  unfold addSet
  split
  · exact h
  · rename_i hx
    rw [List.nodup_append]
    refine ⟨h, by simp, ?_⟩
    intro a ha b hb
    simp only [List.mem_cons, List.not_mem_nil, or_false] at hb
    subst hb
    rintro rfl
    exact hx ha

theorem nodup_foldl_addSet {α : Type} [DecidableEq α] : ∀ (xs acc : List α), acc.Nodup → (xs.foldl addSet acc).Nodup := by
  intro xs
  induction xs with
  | nil => intro acc h; exact h
  | cons x xs ih => intro acc h; exact ih _ (nodup_addSet h x)

/-- The set `datatypes` of attribute.py:52-58. -/
theorem datatypes_fold (ranges : List ((Node I) × (Node I))) (literal : Node I) : ∀ (supers acc : List (Node I)), acc.Nodup →
    (supers.foldl (fun acc s => ((ranges.filter (fun t => t.1 = s && t.2 ≠ literal)).map (·.2)).foldl addSet acc) acc).Nodup ∧
    ∀ d, d ∈ supers.foldl (fun acc s => ((ranges.filter (fun t => t.1 = s && t.2 ≠ literal)).map (·.2)).foldl addSet acc) acc ↔
      d ∈ acc ∨ IsRange ranges literal supers d := by
  intro supers
  induction supers with
  | nil => intro acc h; exact ⟨h, by simp [IsRange]⟩
  | cons s supers ih =>
    intro acc h
    obtain ⟨a, b⟩ := ih _ (nodup_foldl_addSet ((ranges.filter (fun t => t.1 = s && t.2 ≠ literal)).map (·.2)) acc h)
    refine ⟨a, ?_⟩
    intro d
    rw [List.foldl_cons, b, mem_foldl_addSet, or_assoc]
    apply or_congr_right
    unfold IsRange
    simp only [List.mem_map, List.mem_filter, Bool.and_eq_true, decide_eq_true_eq, List.mem_cons]
    constructor
    · rintro (⟨t, ⟨h1, h2, h3⟩, rfl⟩ | ⟨h1, s', h2, h3⟩)
      · exact ⟨h3, s, Or.inl rfl, by rw [← h2]; exact h1⟩
      · exact ⟨h1, s', Or.inr h2, h3⟩
    · rintro ⟨h1, s', rfl | h2, h3⟩
      · exact Or.inl ⟨(s', d), ⟨h3, rfl, h1⟩, rfl⟩
      · exact Or.inr ⟨h1, s', h2, h3⟩

/-- C32: the datatype is `d` iff `d` is the only non trivial range, None iff there is none, and a RuntimeError iff there are two different ones; independent of
the order in which the super attributes are visited. -/
theorem datatype_exact (ranges : List ((Node I) × (Node I))) (literal : Node I) (supers : List (Node I)) :
    (∀ d, datatype ranges literal supers = .ok (some d) ↔ IsRange ranges literal supers d ∧ ∀ d', IsRange ranges literal supers d' → d' = d) ∧
    (datatype ranges literal supers = .ok none ↔ ∀ d, ¬ IsRange ranges literal supers d) ∧
    (datatype ranges literal supers = .error .runtimeError ↔ ∃ d d', d ≠ d' ∧ IsRange ranges literal supers d ∧ IsRange ranges literal supers d') := by
  obtain ⟨hn, hm⟩ := datatypes_fold ranges literal supers [] List.nodup_nil
  unfold datatype
  dsimp only
  generalize supers.foldl (fun acc s => ((ranges.filter (fun t => t.1 = s && t.2 ≠ literal)).map (·.2)).foldl addSet acc) [] = ds at hn hm
  simp only [List.not_mem_nil, false_or] at hm
  match ds, hn, hm with
  | [], _, hm =>
    refine ⟨?_, ?_, ?_⟩
    · intro d
      simp only [Except.ok.injEq, reduceCtorEq, false_iff]
      rintro ⟨h, _⟩
      have := (hm d).2 h
      simp at this
    · simp only [true_iff]
      intro d h
      have := (hm d).2 h
      simp at this
    · simp only [reduceCtorEq, false_iff]
      rintro ⟨d, _, _, h, _⟩
      have := (hm d).2 h
      simp at this
  | [e], _, hm =>
    simp only [List.mem_cons, List.not_mem_nil, or_false] at hm
    refine ⟨?_, ?_, ?_⟩
    · intro d
      simp only [Except.ok.injEq, Option.some.injEq]
      constructor
      · rintro rfl
        exact ⟨(hm _).1 rfl, fun d' h => (hm _).2 h⟩
      · rintro ⟨_, h⟩
        exact h e ((hm e).1 rfl)
    · simp only [Except.ok.injEq, reduceCtorEq, false_iff]
      intro h
      exact h e ((hm e).1 rfl)
    · simp only [reduceCtorEq, false_iff]
      rintro ⟨d, d', hne, h1, h2⟩
      exact hne (((hm d).2 h1).trans ((hm d').2 h2).symm)
  | a :: b :: ds, hn, hm =>
    have hab : a ≠ b := by
      rintro rfl
      simp at hn
    have ha := (hm a).1 (by simp)
    have hb := (hm b).1 (by simp)
    refine ⟨?_, ?_, ?_⟩
    · intro d
      simp only [reduceCtorEq, false_iff]
      rintro ⟨_, h⟩
      exact hab ((h a ha).trans (h b hb).symm)
    · simp only [reduceCtorEq, false_iff]
      intro h
      exact h a ha
    · simp only [true_iff]
      exact ⟨a, b, hab, ha, hb⟩

example : datatype [(.iri 1, .iri 90), (.iri 2, .iri 91), (.iri 3, .iri 91)] (.iri 90) [.iri 1, .iri 2, .iri 3] = .ok (some (.iri 91)) := by decide
example : datatype [(.iri 1, .iri 92), (.iri 2, .iri 91)] (.iri 90) [.iri 1, .iri 2] = .error .runtimeError := by decide

/-! ### C33 -/

variable {A V : Type}

/-- The value an attribute must get: the keyword with its name, else with its lower case name, else the default. -/
def expected (kw : Kwargs V) (a : Attr A) (i : AttrInfo V) : Option V :=
  ((kw.lookup a.argname).or (kw.lookup a.argname.lower)).or i.default

/-- The attribute is given by a keyword. -/
def Given (kw : Kwargs V) (a : Attr A) : Prop := (kw.lookup a.argname).isSome = true ∨ (kw.lookup a.argname.lower).isSome = true

/-- The keyword `k` is the one used for attribute `a`. -/
def UsedFor (kw : Kwargs V) (a : Attr A) (k : Name) : Prop := k = a.argname ∨ (k = a.argname.lower ∧ kw.lookup a.argname = none)

/-- Two attributes that cannot compete for a keyword. -/
def NoClash (a b : Attr A) : Prop :=
  a.argname ≠ b.argname ∧ a.argname.lower ≠ b.argname ∧ a.argname ≠ b.argname.lower ∧ a.argname.lower ≠ b.argname.lower

instance (kw : Kwargs V) (a : Attr A) (k : Name) : Decidable (UsedFor kw a k) := by unfold UsedFor; infer_instance
instance (kw : Kwargs V) (a : Attr A) : Decidable (Given kw a) := by unfold Given; infer_instance

theorem lookup_erase (kw : Kwargs V) (n k : Name) (h : k ≠ n) : (kw.erase n).lookup k = kw.lookup k := by
  unfold Kwargs.erase
  induction kw with
  | nil => rfl
  | cons e kw ih =>
    obtain ⟨x, v⟩ := e
    by_cases hx : x = n
    · subst hx
      rw [List.filter_cons_of_neg (by simp), ih, List.lookup_cons, show (k == x) = false from by simpa using h]
    · rw [List.filter_cons_of_pos (by simpa using hx), List.lookup_cons, List.lookup_cons, ih]

theorem lookup_of_mem (kw : Kwargs V) (e : Name × V) (he : e ∈ kw) : kw.lookup e.1 ≠ none := by
  intro hn
  rw [List.lookup_eq_none_iff] at hn
  simpa using hn e he

theorem filterMap_congr' {α β : Type} {f g : α → Option β} : ∀ {l : List α}, (∀ x ∈ l, f x = g x) → l.filterMap f = l.filterMap g := by
  intro l
  induction l with
  | nil => intro _; rfl
  | cons a l ih =>
    intro h
    rw [List.filterMap_cons, List.filterMap_cons, h a List.mem_cons_self, ih (fun x hx => h x (List.mem_cons_of_mem _ hx))]

theorem given_erase {kw : Kwargs V} {n : Name} {a : Attr A} (h1 : a.argname ≠ n) (h2 : a.argname.lower ≠ n) :
    (Given (kw.erase n) a ↔ Given kw a) ∧ (∀ i, expected (kw.erase n) a i = expected kw a i) ∧ ∀ k, UsedFor (kw.erase n) a k ↔ UsedFor kw a k := by
  unfold Given expected UsedFor
  rw [lookup_erase _ _ _ h1, lookup_erase _ _ _ h2]
  exact ⟨Iff.rfl, fun _ => rfl, fun _ => Iff.rfl⟩

theorem attrLoop_spec (force : Bool) : ∀ (as : List (Attr A × AttrInfo V)), as.Pairwise (fun x y => NoClash x.1 y.1) → ∀ (kw : Kwargs V) (out : List (Attr A × V)),
    ((force = false ∧ ∃ x ∈ as, x.2.obligatory = true ∧ ¬ Given kw x.1) → attrLoop force as kw out = .error .typeError) ∧
    (¬ (force = false ∧ ∃ x ∈ as, x.2.obligatory = true ∧ ¬ Given kw x.1) →
      attrLoop force as kw out = .ok (out ++ as.filterMap (fun x => (expected kw x.1 x.2).map (fun v => (x.1, v))),
        kw.filter (fun e => decide (∀ x ∈ as, ¬ UsedFor kw x.1 e.1)))) := by
  intro as
  induction as with
  | nil =>
    intro _ kw out
    refine ⟨?_, ?_⟩
    · rintro ⟨_, x, hx, _⟩; cases hx
    · intro _
      simp only [attrLoop, List.filterMap_nil, List.append_nil, List.not_mem_nil, false_implies, implies_true, decide_true]
      congr 2
      exact (List.filter_eq_self.2 (fun _ _ => rfl)).symm
  | cons x as ih =>
    intro hp kw out
    rw [List.pairwise_cons] at hp
    obtain ⟨hx, hp⟩ := hp
    obtain ⟨a, i⟩ := x
    have key : ∀ (n : Name) (v : V), kw.lookup n = some v → (n = a.argname ∨ (n = a.argname.lower ∧ kw.lookup a.argname = none)) →
        expected kw a i = some v ∧ Given kw a ∧
        (((force = false ∧ ∃ x ∈ as, x.2.obligatory = true ∧ ¬ Given kw x.1) → attrLoop force as (kw.erase n) (out ++ [(a, v)]) = .error .typeError) ∧
        (¬ (force = false ∧ ∃ x ∈ as, x.2.obligatory = true ∧ ¬ Given kw x.1) →
          attrLoop force as (kw.erase n) (out ++ [(a, v)]) =
            .ok ((out ++ [(a, v)]) ++ as.filterMap (fun x => (expected kw x.1 x.2).map (fun v => (x.1, v))),
              kw.filter (fun e => decide (∀ x ∈ (a, i) :: as, ¬ UsedFor kw x.1 e.1))))) := by
      intro n v hv hn
      have hcl : ∀ y ∈ as, y.1.argname ≠ n ∧ y.1.argname.lower ≠ n := by
        intro y hy
        have := hx y hy
        unfold NoClash at this
        rcases hn with rfl | ⟨rfl, _⟩
        · exact ⟨this.1.symm, this.2.2.1.symm⟩
        · exact ⟨this.2.1.symm, this.2.2.2.symm⟩
      have hg : ∀ y ∈ as, (Given (kw.erase n) y.1 ↔ Given kw y.1) := fun y hy => (given_erase (hcl y hy).1 (hcl y hy).2).1
      have he : ∀ y ∈ as, ∀ i, expected (kw.erase n) y.1 i = expected kw y.1 i := fun y hy => (given_erase (hcl y hy).1 (hcl y hy).2).2.1
      have hu : ∀ y ∈ as, ∀ k, UsedFor (kw.erase n) y.1 k ↔ UsedFor kw y.1 k := fun y hy => (given_erase (hcl y hy).1 (hcl y hy).2).2.2
      obtain ⟨i1, i2⟩ := ih hp (kw.erase n) (out ++ [(a, v)])
      refine ⟨?_, ?_, ?_, ?_⟩
      · unfold expected
        rcases hn with rfl | ⟨rfl, h0⟩
        · rw [hv]; rfl
        · rw [h0, hv]; rfl
      · unfold Given
        rcases hn with rfl | ⟨rfl, h0⟩
        · left; rw [hv]; rfl
        · right; rw [hv]; rfl
      · rintro ⟨h1, y, hy, h2, h3⟩
        exact i1 ⟨h1, y, hy, h2, fun h => h3 ((hg y hy).1 h)⟩
      · intro h
        rw [i2 (by
          rintro ⟨h1, y, hy, h2, h3⟩
          exact h ⟨h1, y, hy, h2, fun h => h3 ((hg y hy).2 h)⟩)]
        congr 2
        · congr 1
          exact filterMap_congr' (fun y hy => by rw [he y hy])
        · unfold Kwargs.erase
          rw [List.filter_filter]
          apply List.filter_congr
          intro e hmem
          rw [Bool.eq_iff_iff]
          simp only [decide_eq_true_eq, Bool.and_eq_true]
          constructor
          · rintro ⟨h1, h2⟩ y hy
            rcases List.mem_cons.1 hy with rfl | hy
            · intro hU
              rcases hn with rfl | ⟨rfl, h0⟩
              · rcases hU with hU | ⟨_, hU⟩
                · exact h2 hU
                · rw [hU] at hv; cases hv
              · rcases hU with hU | ⟨hU, _⟩
                · have := lookup_of_mem kw e hmem
                  rw [hU] at this
                  exact this h0
                · exact h2 hU
            · intro hU
              exact h1 y hy ((hu y hy e.1).2 hU)
          · intro h1
            refine ⟨fun y hy hU => h1 y (List.mem_cons_of_mem _ hy) ((hu y hy e.1).1 hU), ?_⟩
            rintro rfl
            exact h1 (a, i) List.mem_cons_self hn
    unfold attrLoop
    cases h1 : kw.lookup a.argname with
    | some v =>
      dsimp only
      obtain ⟨k1, k2, k3, k4⟩ := key a.argname v h1 (Or.inl rfl)
      refine ⟨?_, ?_⟩
      · rintro ⟨h, y, hy, h2, h3⟩
        rcases List.mem_cons.1 hy with rfl | hy
        · exact absurd k2 h3
        · exact k3 ⟨h, y, hy, h2, h3⟩
      · intro h
        rw [k4 (fun ⟨h1, y, hy, h2⟩ => h ⟨h1, y, List.mem_cons_of_mem _ hy, h2⟩)]
        rw [List.filterMap_cons, k1]
        simp
    | none =>
      dsimp only
      cases h2 : kw.lookup a.argname.lower with
      | some v =>
        dsimp only
        obtain ⟨k1, k2, k3, k4⟩ := key _ v h2 (Or.inr ⟨rfl, h1⟩)
        refine ⟨?_, ?_⟩
        · rintro ⟨h, y, hy, h2, h3⟩
          rcases List.mem_cons.1 hy with rfl | hy
          · exact absurd k2 h3
          · exact k3 ⟨h, y, hy, h2, h3⟩
        · intro h
          rw [k4 (fun ⟨h1, y, hy, h2⟩ => h ⟨h1, y, List.mem_cons_of_mem _ hy, h2⟩)]
          rw [List.filterMap_cons, k1]
          simp
      | none =>
        dsimp only
        have hng : ¬ Given kw a := by unfold Given; rw [h1, h2]; simp
        have hex : expected kw a i = i.default := by unfold expected; rw [h1, h2]; rfl
        have hnu : ∀ e ∈ kw, ¬ UsedFor kw a e.1 := by
          have hmem : ∀ e ∈ kw, kw.lookup e.1 ≠ none := by
            intro e he hn
            rw [List.lookup_eq_none_iff] at hn
            simpa using hn e he
          rintro e he (h | ⟨h, _⟩)
          · exact hmem e he (h ▸ h1)
          · exact hmem e he (h ▸ h2)
        have hfil : kw.filter (fun e => decide (∀ x ∈ (a, i) :: as, ¬ UsedFor kw x.1 e.1)) = kw.filter (fun e => decide (∀ x ∈ as, ¬ UsedFor kw x.1 e.1)) := by
          apply List.filter_congr
          intro e he
          rw [Bool.eq_iff_iff]
          simp only [decide_eq_true_eq]
          constructor
          · exact fun h x hx => h x (List.mem_cons_of_mem _ hx)
          · intro h x hx
            rcases List.mem_cons.1 hx with rfl | hx
            · exact hnu e he
            · exact h x hx
        by_cases hob : (!force && i.obligatory) = true
        · rw [if_pos hob]
          simp only [Bool.and_eq_true, Bool.not_eq_true'] at hob
          exact ⟨fun _ => rfl, fun h => absurd ⟨hob.1, (a, i), List.mem_cons_self, hob.2, hng⟩ h⟩
        · rw [if_neg hob]
          have hiff : (force = false ∧ ∃ x ∈ (a, i) :: as, x.2.obligatory = true ∧ ¬ Given kw x.1) ↔
              (force = false ∧ ∃ x ∈ as, x.2.obligatory = true ∧ ¬ Given kw x.1) := by
            constructor
            · rintro ⟨h, y, hy, h2, h3⟩
              rcases List.mem_cons.1 hy with rfl | hy
              · exact absurd (by simpa [h] using h2) hob
              · exact ⟨h, y, hy, h2, h3⟩
            · rintro ⟨h, y, hy, h2⟩
              exact ⟨h, y, List.mem_cons_of_mem _ hy, h2⟩
          rw [hiff, hfil, List.filterMap_cons, hex]
          cases hd : i.default with
          | none =>
            simp only [Option.map_none]
            exact ih hp kw out
          | some d =>
            simp only [Option.map_some]
            obtain ⟨i1, i2⟩ := ih hp kw (out ++ [(a, d)])
            refine ⟨i1, fun h => ?_⟩
            rw [i2 h]
            simp

/-- C33: for attributes that do not compete for a keyword, instantiating a class
* raises TypeError iff an obligatory attribute is not given, or a keyword is left that no attribute uses;
* otherwise sets exactly the attributes that are given or have a default, to the keyword (by name, else by lower case name), else to the default. -/
theorem constructor_arguments_exact (attrs : List (Attr A × AttrInfo V)) (hp : attrs.Pairwise (fun x y => NoClash x.1 y.1)) (kw : Kwargs V) :
    ((∃ x ∈ attrs, x.2.obligatory = true ∧ ¬ Given kw x.1) ∨ (∃ e ∈ kw, ∀ x ∈ attrs, ¬ UsedFor kw x.1 e.1) →
      attributesValues false attrs kw = .error .typeError) ∧
    (¬ ((∃ x ∈ attrs, x.2.obligatory = true ∧ ¬ Given kw x.1) ∨ (∃ e ∈ kw, ∀ x ∈ attrs, ¬ UsedFor kw x.1 e.1)) →
      attributesValues false attrs kw = .ok (attrs.filterMap (fun x => (expected kw x.1 x.2).map (fun v => (x.1, v))))) := by
  obtain ⟨h1, h2⟩ := attrLoop_spec false attrs hp kw []
  unfold attributesValues
  constructor
  · intro h
    by_cases hob : ∃ x ∈ attrs, x.2.obligatory = true ∧ ¬ Given kw x.1
    · rw [h1 ⟨rfl, hob⟩]
    · obtain ⟨e, he, hu⟩ := h.resolve_left hob
      rw [h2 (fun k => hob k.2)]
      dsimp only
      rw [if_pos]
      simp only [Bool.not_false, Bool.true_and, Bool.not_eq_true', List.isEmpty_eq_false_iff]
      intro hnil
      have : e ∈ kw.filter (fun e => decide (∀ x ∈ attrs, ¬ UsedFor kw x.1 e.1)) := List.mem_filter.2 ⟨he, by simpa using hu⟩
      rw [hnil] at this
      cases this
  · intro h
    rw [h2 (fun k => h (Or.inl k.2))]
    dsimp only
    rw [if_neg]
    · simp
    · simp only [Bool.not_false, Bool.true_and, Bool.not_eq_true', List.isEmpty_eq_false_iff, ne_eq, Decidable.not_not]
      rw [List.filter_eq_nil_iff]
      intro e he
      simp only [decide_eq_true_eq]
      exact fun k => h (Or.inr ⟨e, he, k⟩)

/-- C33, with `_force` no error is raised and the values are the same. -/
theorem constructor_arguments_force (attrs : List (Attr A × AttrInfo V)) (hp : attrs.Pairwise (fun x y => NoClash x.1 y.1)) (kw : Kwargs V) :
    attributesValues true attrs kw = .ok (attrs.filterMap (fun x => (expected kw x.1 x.2).map (fun v => (x.1, v)))) := by
  obtain ⟨_, h2⟩ := attrLoop_spec true attrs hp kw []
  unfold attributesValues
  rw [h2 (by simp)]
  simp

/-- C33 without any assumption on names: a successful constructor call drops no keyword. -/
theorem no_keyword_dropped (attrs : List (Attr A × AttrInfo V)) (kw : Kwargs V) (hd : (kw.map (·.1)).Nodup) (out : List (Attr A × V))
    (h : attributesValues false attrs kw = .ok out) :
    ∀ e ∈ kw, ∃ a, (a, e.2) ∈ out ∧ (a.argname = e.1 ∨ a.argname.lower = e.1) := by
  have hlk : ∀ (kw : Kwargs V) (e : Name × V) (v : V), (kw.map (·.1)).Nodup → e ∈ kw → kw.lookup e.1 = some v → e.2 = v := by
    intro kw
    induction kw with
    | nil => intro e v _ he; cases he
    | cons b kw ih =>
      intro e v hn he hv
      obtain ⟨x, w⟩ := b
      rw [List.map_cons, List.nodup_cons] at hn
      rw [List.lookup_cons] at hv
      rcases List.mem_cons.1 he with rfl | he
      · simp at hv; exact hv
      · have : e.1 ≠ x := fun h => hn.1 (List.mem_map.2 ⟨e, he, h⟩)
        have hb : (e.1 == x) = false := by simpa using this
        rw [hb] at hv
        exact ih e v hn.2 he hv
  have key : ∀ (as : List (Attr A × AttrInfo V)) (kw : Kwargs V) (out out' : List (Attr A × V)) (kw' : Kwargs V), (kw.map (·.1)).Nodup →
      attrLoop false as kw out = .ok (out', kw') → (∀ p ∈ out, p ∈ out') ∧
      ∀ e ∈ kw, e ∈ kw' ∨ ∃ a, (a, e.2) ∈ out' ∧ (a.argname = e.1 ∨ a.argname.lower = e.1) := by
    intro as
    induction as with
    | nil =>
      intro kw out out' kw' _ h
      simp only [attrLoop, Except.ok.injEq, Prod.mk.injEq] at h
      obtain ⟨rfl, rfl⟩ := h
      exact ⟨fun _ h => h, fun _ h => Or.inl h⟩
    | cons x as ih =>
      intro kw out out' kw' hn h
      obtain ⟨a, i⟩ := x
      have stepUse : ∀ n v, kw.lookup n = some v → (a.argname = n ∨ a.argname.lower = n) →
          attrLoop false as (kw.erase n) (out ++ [(a, v)]) = .ok (out', kw') → (∀ p ∈ out, p ∈ out') ∧
          ∀ e ∈ kw, e ∈ kw' ∨ ∃ a, (a, e.2) ∈ out' ∧ (a.argname = e.1 ∨ a.argname.lower = e.1) := by
        intro n v hv hna h
        obtain ⟨i1, i2⟩ := ih _ _ _ _ (by
          unfold Kwargs.erase
          exact hn.sublist (List.filter_sublist.map _)) h
        refine ⟨fun p hp => i1 p (List.mem_append_left _ hp), ?_⟩
        intro e he
        by_cases hen : e.1 = n
        · right
          refine ⟨a, ?_, by rw [hen]; exact hna⟩
          rw [hlk kw e v hn he (hen ▸ hv)]
          exact i1 _ (by simp)
        · exact i2 e (List.mem_filter.2 ⟨he, by simpa using hen⟩)
      unfold attrLoop at h
      cases h1 : kw.lookup a.argname with
      | some v => rw [h1] at h; exact stepUse _ v h1 (Or.inl rfl) h
      | none =>
        rw [h1] at h
        dsimp only at h
        cases h2 : kw.lookup a.argname.lower with
        | some v => rw [h2] at h; exact stepUse _ v h2 (Or.inr rfl) h
        | none =>
          rw [h2] at h
          dsimp only at h
          split at h
          · cases h
          · cases hd : i.default with
            | none =>
              rw [hd] at h
              exact ih _ _ _ _ hn h
            | some d =>
              rw [hd] at h
              obtain ⟨i1, i2⟩ := ih _ _ _ _ hn h
              exact ⟨fun p hp => i1 p (List.mem_append_left _ hp), i2⟩
  unfold attributesValues at h
  cases hl : attrLoop false attrs kw [] with
  | error e => rw [hl] at h; cases h
  | ok r =>
    obtain ⟨o, k⟩ := r
    rw [hl] at h
    dsimp only at h
    split at h
    · cases h
    · rename_i hk
      simp only [Except.ok.injEq] at h
      subst h
      simp only [Bool.not_false, Bool.true_and, Bool.not_eq_true', List.isEmpty_eq_false_iff, ne_eq, Decidable.not_not] at hk
      subst hk
      intro e he
      rcases (key attrs kw [] o [] hd hl).2 e he with h | h
      · cases h
      · exact h

/-- Deviation: attributes whose names differ only in case compete for the keyword, the result depends on the order of the attributes: a keyword that names one of
them exactly is given to the other. -/
theorem case_clash_steals_keyword :
    attributesValues false [(⟨1, ['N', 'a', 'm', 'e']⟩, ⟨none, false, none⟩), (⟨2, ['n', 'a', 'm', 'e']⟩, ⟨none, false, none⟩)] [(['n', 'a', 'm', 'e'], 7)] = .ok [(⟨1, ['N', 'a', 'm', 'e']⟩, 7)] ∧
    attributesValues false [(⟨2, ['n', 'a', 'm', 'e']⟩, ⟨none, false, none⟩), (⟨1, ['N', 'a', 'm', 'e']⟩, ⟨none, false, none⟩)] [(['n', 'a', 'm', 'e'], 7)] = .ok [(⟨2, ['n', 'a', 'm', 'e']⟩, 7)] := by decide

/-- Deviation: with `_force`, which the session layer uses, unknown keywords are dropped silently. -/
theorem force_drops_keyword : attributesValues true [(⟨1, ['n', 'a', 'm', 'e']⟩, ⟨none, true, none⟩)] [(['n', 'm', 'a', 'e'], 7)] = .ok [] := by decide

example : ([(⟨1, ['n', 'a', 'm', 'e']⟩, ⟨none, true, none⟩), (⟨2, ['A', 'g', 'e']⟩, ⟨some 25, false, none⟩), (⟨3, ['s', 'i', 'z', 'e']⟩, ⟨none, false, none⟩)] : List (Attr Nat × AttrInfo Nat)).Pairwise
    (fun x y => NoClash x.1 y.1) := by unfold NoClash; decide
example : attributesValues false [(⟨1, ['n', 'a', 'm', 'e']⟩, ⟨none, true, none⟩), (⟨2, ['A', 'g', 'e']⟩, ⟨some 25, false, none⟩), (⟨3, ['s', 'i', 'z', 'e']⟩, ⟨none, false, none⟩)] [(['a', 'g', 'e'], 4), (['n', 'a', 'm', 'e'], 2)] =
    .ok [(⟨1, ['n', 'a', 'm', 'e']⟩, 2), (⟨2, ['A', 'g', 'e']⟩, 4)] := by decide

/-! ### C61 -/

variable {C : Type} [DecidableEq A]

/-- Class `c` itself states the attribute `a` with information `v`. -/
def States (own : C → List (A × AttrInfo V)) (supers : List C) (a : A) (v : AttrInfo V) : Prop := ∃ c ∈ supers, (a, v) ∈ own c

/-- The merge of two statements, oclass.py:42. -/
def AttrInfo.merge (tr : V → Bool) (x v : AttrInfo V) : AttrInfo V :=
  { default := pyOr tr x.default v.default, obligatory := x.obligatory || v.obligatory, datatype := pyOr tr x.datatype v.datatype }

theorem mergeAttr_spec (tr : V → Bool) (acc : List (A × AttrInfo V)) (a : A) (v : AttrInfo V) (hn : (acc.map (·.1)).Nodup) :
    ((mergeAttr tr acc a v).map (·.1)).Nodup ∧ (∀ b, b ∈ (mergeAttr tr acc a v).map (·.1) ↔ b ∈ acc.map (·.1) ∨ b = a) ∧
    (∀ b x, b ≠ a → ((b, x) ∈ mergeAttr tr acc a v ↔ (b, x) ∈ acc)) ∧
    (∀ x, (a, x) ∈ mergeAttr tr acc a v → (∃ y, (a, y) ∈ acc ∧ x = y.merge tr v) ∨ (a ∉ acc.map (·.1) ∧ x = v)) := by
  induction acc with
  | nil => simp [mergeAttr, pyOr]; intro b x h1 h2; exact absurd h2 h1
  | cons e acc ih =>
    obtain ⟨a', y⟩ := e
    rw [List.map_cons, List.nodup_cons] at hn
    unfold mergeAttr
    by_cases h : a' = a
    · subst h
      rw [if_pos rfl]
      refine ⟨by simpa using hn, ?_, ?_, ?_⟩
      · intro b; simp; tauto
      · intro b x hb; simp [hb]
      · intro x hx
        left
        rcases List.mem_cons.1 hx with hx | hx
        · cases hx; exact ⟨y, List.mem_cons_self, rfl⟩
        · exact absurd (List.mem_map.2 ⟨_, hx, rfl⟩) hn.1
    · rw [if_neg h]
      obtain ⟨i1, i2, i3, i4⟩ := ih hn.2
      refine ⟨?_, ?_, ?_, ?_⟩
      · rw [List.map_cons, List.nodup_cons]
        refine ⟨?_, i1⟩
        rw [i2]
        rintro (k | k)
        · exact hn.1 k
        · exact h k
      · intro b
        rw [List.map_cons, List.mem_cons, i2, List.map_cons, List.mem_cons, or_assoc]
      · intro b x hb
        rw [List.mem_cons, i3 b x hb, List.mem_cons]
      · intro x hx
        rcases List.mem_cons.1 hx with hx | hx
        · cases hx; exact absurd rfl h
        · rcases i4 x hx with ⟨y', k1, k2⟩ | ⟨k1, k2⟩
          · exact Or.inl ⟨y', List.mem_cons_of_mem _ k1, k2⟩
          · refine Or.inr ⟨?_, k2⟩
            rw [List.map_cons, List.mem_cons]
            rintro (k | k)
            · exact h k.symm
            · exact k1 k

theorem pyOr_some {tr : V → Bool} {x y : Option V} {d : V} (h : pyOr tr x y = some d) : x = some d ∨ y = some d := by
  unfold pyOr at h
  split at h
  · split at h
    · exact Or.inl h
    · exact Or.inr h
  · exact Or.inr h

theorem pyOr_truthy {tr : V → Bool} {x y : Option V} (h : (∃ d, x = some d ∧ tr d = true) ∨ ∃ d, y = some d ∧ tr d = true) : ∃ d, pyOr tr x y = some d ∧ tr d = true := by
  rcases h with ⟨d, rfl, hd⟩ | ⟨d, rfl, hd⟩
  · exact ⟨d, by simp [pyOr, hd], hd⟩
  · unfold pyOr
    split
    · split
      · exact ⟨_, rfl, by assumption⟩
      · exact ⟨d, rfl, hd⟩
    · exact ⟨d, rfl, hd⟩

theorem pyOr_same {tr : V → Bool} (x : Option V) : pyOr tr x x = x := by
  unfold pyOr
  split
  · split <;> rfl
  · rfl

/-- What is stated of one field (default or datatype): it is one of the stated ones, truthy if a truthy one is stated, and the stated one if all agree. -/
structure FieldInv (tr : V → Bool) (f : AttrInfo V → Option V) (sts : AttrInfo V → Prop) (x : Option V) : Prop where
  some : ∀ d, x = some d → ∃ v, sts v ∧ f v = some d
  truthy : ∀ v d, sts v → f v = .some d → tr d = true → ∃ d', x = .some d' ∧ tr d' = true
  agree : ∀ o, (∀ v, sts v → f v = o) → x = o

theorem fieldInv_step {tr : V → Bool} {f : AttrInfo V → Option V} {sts : AttrInfo V → Prop} {x : Option V} (h : FieldInv tr f sts x) (v : AttrInfo V) :
    FieldInv tr f (fun w => sts w ∨ w = v) (pyOr tr x (f v)) := by
  refine ⟨?_, ?_, ?_⟩
  · intro d hd
    rcases pyOr_some hd with k | k
    · obtain ⟨w, h1, h2⟩ := h.some d k
      exact ⟨w, Or.inl h1, h2⟩
    · exact ⟨v, Or.inr rfl, k⟩
  · rintro w d (hw | rfl) hd ht
    · exact pyOr_truthy (Or.inl (h.truthy w d hw hd ht))
    · exact pyOr_truthy (Or.inr ⟨d, hd, ht⟩)
  · intro o ho
    rw [h.agree o (fun w hw => ho w (Or.inl hw)), ho v (Or.inr rfl)]
    exact pyOr_same o

theorem fieldInv_one {tr : V → Bool} {f : AttrInfo V → Option V} (v : AttrInfo V) : FieldInv tr f (fun w => w = v) (f v) := by
  refine ⟨fun d hd => ⟨v, rfl, hd⟩, ?_, fun o ho => ho v rfl⟩
  rintro w d rfl hd ht
  exact ⟨d, hd, ht⟩

theorem FieldInv.congr {tr : V → Bool} {f : AttrInfo V → Option V} {s s' : AttrInfo V → Prop} {x : Option V} (h : FieldInv tr f s x) (he : ∀ v, s v ↔ s' v) : FieldInv tr f s' x := by
  have : s = s' := funext fun v => propext (he v)
  rw [← this]; exact h

/-- Invariant of `attributes` after the statements `sts`. -/
structure AttrInv (tr : V → Bool) (sts : List (A × AttrInfo V)) (acc : List (A × AttrInfo V)) : Prop where
  nodup : (acc.map (·.1)).Nodup
  keys : ∀ a, a ∈ acc.map (·.1) ↔ ∃ v, (a, v) ∈ sts
  oblig : ∀ a x, (a, x) ∈ acc → (x.obligatory = true ↔ ∃ v, (a, v) ∈ sts ∧ v.obligatory = true)
  default : ∀ a x, (a, x) ∈ acc → FieldInv tr AttrInfo.default (fun v => (a, v) ∈ sts) x.default
  datatype : ∀ a x, (a, x) ∈ acc → FieldInv tr AttrInfo.datatype (fun v => (a, v) ∈ sts) x.datatype

theorem attrInv_step {tr : V → Bool} {sts acc : List (A × AttrInfo V)} (h : AttrInv tr sts acc) (a : A) (v : AttrInfo V) : AttrInv tr (sts ++ [(a, v)]) (mergeAttr tr acc a v) := by
  obtain ⟨m1, m2, m3, m4⟩ := mergeAttr_spec tr acc a v h.nodup
  have hsame : ∀ w, (a, w) ∈ sts ++ [(a, v)] ↔ (a, w) ∈ sts ∨ w = v := by intro w; simp
  have hother : ∀ b w, b ≠ a → ((b, w) ∈ sts ++ [(a, v)] ↔ (b, w) ∈ sts) := by intro b w hb; simp [hb]
  have hfirst : a ∉ acc.map (·.1) → ∀ w, (a, w) ∉ sts := fun hk w hw => hk ((h.keys a).2 ⟨w, hw⟩)
  refine ⟨m1, ?_, ?_, ?_, ?_⟩
  · intro b
    rw [m2, h.keys]
    by_cases hb : b = a
    · subst hb
      simp only [or_true, true_iff]
      exact ⟨v, (hsame v).2 (Or.inr rfl)⟩
    · simp only [hother b _ hb, hb, or_false]
  · intro b x hx
    by_cases hb : b = a
    · subst hb
      simp only [hsame]
      rcases m4 x hx with ⟨y, k1, rfl⟩ | ⟨k1, rfl⟩
      · simp only [AttrInfo.merge, Bool.or_eq_true, h.oblig b y k1]
        constructor
        · rintro (⟨w, h1, h2⟩ | h2)
          · exact ⟨w, Or.inl h1, h2⟩
          · exact ⟨v, Or.inr rfl, h2⟩
        · rintro ⟨w, h1 | rfl, h2⟩
          · exact Or.inl ⟨w, h1, h2⟩
          · exact Or.inr h2
      · constructor
        · intro h2; exact ⟨x, Or.inr rfl, h2⟩
        · rintro ⟨w, h1 | rfl, h2⟩
          · exact absurd h1 (hfirst k1 w)
          · exact h2
    · simp only [hother b _ hb]
      exact h.oblig b x ((m3 b x hb).1 hx)
  · intro b x hx
    by_cases hb : b = a
    · subst hb
      rcases m4 x hx with ⟨y, k1, rfl⟩ | ⟨k1, rfl⟩
      · exact (fieldInv_step (h.default b y k1) v).congr (fun w => (hsame w).symm)
      · exact (fieldInv_one x).congr (fun w => by rw [hsame]; exact ⟨Or.inr, fun k => k.resolve_left (hfirst k1 w)⟩)
    · exact (h.default b x ((m3 b x hb).1 hx)).congr (fun w => (hother b w hb).symm)
  · intro b x hx
    by_cases hb : b = a
    · subst hb
      rcases m4 x hx with ⟨y, k1, rfl⟩ | ⟨k1, rfl⟩
      · exact (fieldInv_step (h.datatype b y k1) v).congr (fun w => (hsame w).symm)
      · exact (fieldInv_one x).congr (fun w => by rw [hsame]; exact ⟨Or.inr, fun k => k.resolve_left (hfirst k1 w)⟩)
    · exact (h.datatype b x ((m3 b x hb).1 hx)).congr (fun w => (hother b w hb).symm)

theorem attributes_inv (tr : V → Bool) (own : C → List (A × AttrInfo V)) (supers : List C) : AttrInv tr (supers.flatMap own) (attributes tr own supers) := by
  have inner : ∀ (l sts acc : List (A × AttrInfo V)), AttrInv tr sts acc → AttrInv tr (sts ++ l) (l.foldl (fun acc av => mergeAttr tr acc av.1 av.2) acc) := by
    intro l
    induction l with
    | nil => intro sts acc h; simpa using h
    | cons x l ih =>
      intro sts acc h
      have := ih _ _ (attrInv_step h x.1 x.2)
      simpa using this
  have outer : ∀ (l : List C) (sts acc : List (A × AttrInfo V)), AttrInv tr sts acc →
      AttrInv tr (sts ++ l.flatMap own) (l.foldl (fun acc c => (own c).foldl (fun acc av => mergeAttr tr acc av.1 av.2) acc) acc) := by
    intro l
    induction l with
    | nil => intro sts acc h; simpa using h
    | cons c l ih =>
      intro sts acc h
      have := ih _ _ (inner (own c) sts acc h)
      simpa using this
  have h := outer supers [] [] ⟨by simp, by simp, by simp, by simp, by simp⟩
  unfold attributes
  simpa using h

/-- C61: a class has exactly the attributes its superclasses state, each once; an attribute is obligatory iff some superclass makes it so; its default and its datatype are among
the stated ones, truthy if a truthy one is stated, and if all statements agree they are what is stated. -/
theorem attributes_inherited (tr : V → Bool) (own : C → List (A × AttrInfo V)) (supers : List C) :
    ((attributes tr own supers).map (·.1)).Nodup ∧
    (∀ a, a ∈ (attributes tr own supers).map (·.1) ↔ ∃ v, States own supers a v) ∧
    (∀ a x, (a, x) ∈ attributes tr own supers → (x.obligatory = true ↔ ∃ v, States own supers a v ∧ v.obligatory = true)) ∧
    (∀ f, f = AttrInfo.default ∨ f = AttrInfo.datatype → ∀ a x, (a, x) ∈ attributes tr own supers →
      (∀ d, f x = some d → ∃ v, States own supers a v ∧ f v = some d) ∧
      (∀ v d, States own supers a v → f v = some d → tr d = true → ∃ d', f x = some d' ∧ tr d' = true) ∧
      (∀ o, (∀ v, States own supers a v → f v = o) → f x = o)) := by
  have h := attributes_inv tr own supers
  have hs : ∀ a v, (a, v) ∈ supers.flatMap own ↔ States own supers a v := by
    intro a v
    simp [States, List.mem_flatMap]
  refine ⟨h.nodup, ?_, ?_, ?_⟩
  · intro a; exact (h.keys a).trans (by simp only [hs])
  · intro a x hx; rw [h.oblig a x hx]; simp only [hs]
  · rintro f (rfl | rfl) a x hx
    · have k := (h.default a x hx).congr (hs a)
      exact ⟨k.some, k.truthy, k.agree⟩
    · have k := (h.datatype a x hx).congr (hs a)
      exact ⟨k.some, k.truthy, k.agree⟩

/-- Truth of a Python number. Python itself; models nothing in /repo. -/
def nonzero (n : Nat) : Bool := n != 0

/-- Deviation: the default depends on the order in which the set of superclasses is iterated; a subclass does not override its parent reliably. -/
theorem default_order_dependent :
    let own : Nat → List (Nat × AttrInfo Nat) := fun c => if c = 1 then [(5, ⟨some 10, false, none⟩)] else [(5, ⟨some 20, false, none⟩)]
    attributes nonzero own [1, 2] = [(5, ⟨some 10, false, none⟩)] ∧ attributes nonzero own [2, 1] = [(5, ⟨some 20, false, none⟩)] := by decide

/-- Deviation: a falsy default (0, "", False) of a subclass never overrides the truthy default of its parent, whatever the order. -/
theorem falsy_default_lost :
    let own : Nat → List (Nat × AttrInfo Nat) := fun c => if c = 1 then [(5, ⟨some 0, false, none⟩)] else [(5, ⟨some 20, false, none⟩)]
    attributes nonzero own [1, 2] = [(5, ⟨some 20, false, none⟩)] ∧ attributes nonzero own [2, 1] = [(5, ⟨some 20, false, none⟩)] := by decide

/-- Deviation: giving a default in a subclass does not lift the obligation of the superclass; instantiation without the keyword still raises. -/
theorem default_does_not_lift_obligation :
    let own : Nat → List (Nat × AttrInfo Nat) := fun c => if c = 1 then [(5, ⟨some 10, false, none⟩)] else [(5, ⟨none, true, none⟩)]
    attributes nonzero own [1, 2] = [(5, ⟨some 10, true, none⟩)] ∧ attributesValues (A := Nat) (V := Nat) false [(⟨5, ['a', 'g', 'e']⟩, ⟨some 10, true, none⟩)] [] = .error .typeError := by decide

/-- Deviation: a restriction makes its attribute obligatory even if it allows zero values (owl:minCardinality 0, or only owl:allValuesFrom). -/
theorem restriction_always_obligatory (b : Bool) : restrictionObligatory (V := V) b none = true := by cases b <;> rfl

end Osp.Onto
