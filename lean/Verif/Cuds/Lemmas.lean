import Verif.Cuds.Model
/-! Helper lemmas for the CUDS API model. -/
namespace Osp.Cuds

/-! ### graphs -/

@[simp] theorem mem_gadd {g : Graph} {t t' : Triple} : t ∈ g.add t' ↔ t = t' ∨ t ∈ g := by
  unfold Graph.add
  split
  · constructor
    · exact Or.inr
    · rintro (rfl | h) <;> assumption
  · simp [or_comm]

theorem nodup_gadd {g : Graph} {t : Triple} (h : g.Nodup) : (g.add t).Nodup := by
  unfold Graph.add
  split
  · exact h
  · rw [List.nodup_append]
    refine ⟨h, by simp, ?_⟩
    intro a ha b hb
    simp only [List.mem_singleton] at hb
    subst hb
    rintro rfl
    contradiction

@[simp] theorem gadd_of_mem {g : Graph} {t : Triple} (h : t ∈ g) : g.add t = g := by
  simp [Graph.add, h]

theorem matchesPat_iff {t : Triple} {s : Option Uid} {p : Option Pred} {o : Option Obj} :
    t.matchesPat s p o = true ↔ (∀ x, s = some x → x = t.s) ∧ (∀ x, p = some x → x = t.p) ∧ (∀ x, o = some x → x = t.o) := by
  unfold Triple.matchesPat
  cases s <;> cases p <;> cases o <;> simp [and_assoc]

@[simp] theorem mem_gremove {g : Graph} {t : Triple} {s p o} :
    t ∈ g.remove s p o ↔ t ∈ g ∧ t.matchesPat s p o = false := by
  simp [Graph.remove]

@[simp] theorem mem_gtriples {g : Graph} {t : Triple} {s p o} :
    t ∈ g.triples s p o ↔ t ∈ g ∧ t.matchesPat s p o = true := by
  simp [Graph.triples]

theorem nodup_gremove {g : Graph} {s p o} (h : g.Nodup) : (g.remove s p o).Nodup := h.filter _
theorem nodup_gtriples {g : Graph} {s p o} (h : g.Nodup) : (g.triples s p o).Nodup := h.filter _

theorem gremove_eq_self {g : Graph} {s p o} (h : ∀ t ∈ g, t.matchesPat s p o = false) : g.remove s p o = g := by
  unfold Graph.remove
  rw [List.filter_eq_self]
  intro t ht
  simp [h t ht]

/-! ### lists -/

@[simp] theorem mem_dedup {α : Type} [DecidableEq α] {l : List α} {x : α} : x ∈ dedup l ↔ x ∈ l := by
  induction l with
  | nil => simp [dedup]
  | cons y ys ih =>
    simp only [dedup, List.mem_cons, List.mem_filter, ih, ne_eq, decide_eq_true_eq]
    constructor
    · rintro (h | ⟨h, _⟩)
      · exact Or.inl h
      · exact Or.inr h
    · intro h
      by_cases hx : x = y
      · exact Or.inl hx
      · exact Or.inr ⟨h.resolve_left hx, hx⟩

theorem nodup_dedup {α : Type} [DecidableEq α] (l : List α) : (dedup l).Nodup := by
  induction l with
  | nil => simp [dedup]
  | cons y ys ih =>
    rw [dedup, List.nodup_cons]
    exact ⟨by simp, ih.filter _⟩

theorem nodup_filterMap {α β : Type} {f : α → Option β} {l : List α} (h : l.Nodup)
    (hf : ∀ a ∈ l, ∀ a' ∈ l, ∀ b, f a = some b → f a' = some b → a = a') : (l.filterMap f).Nodup := by
  induction l with
  | nil => simp
  | cons x xs ih =>
    rw [List.nodup_cons] at h
    have ih' := ih h.2 (fun a ha a' ha' => hf a (by simp [ha]) a' (by simp [ha']))
    rw [List.filterMap_cons]
    split
    · exact ih'
    · rename_i b hb
      rw [List.nodup_cons]
      refine ⟨?_, ih'⟩
      intro hm
      obtain ⟨a, ha, hab⟩ := List.mem_filterMap.1 hm
      have := hf x (by simp) a (by simp [ha]) b hb hab
      subst this
      exact h.1 ha

/-! ### reading -/

theorem mem_oclasses {g : Graph} {u : Uid} {c : Cls} : c ∈ oclasses g u ↔ ⟨u, .type, .cls c⟩ ∈ g := by
  unfold oclasses
  simp only [List.mem_filterMap, mem_gtriples, matchesPat_iff]
  constructor
  · rintro ⟨⟨s, p, o⟩, ⟨ht, h1, h2, _⟩, h3⟩
    have := h1 _ rfl
    have := h2 _ rfl
    simp only at *
    subst_vars
    cases o <;> simp at h3
    subst h3
    exact ht
  · intro h
    exact ⟨_, ⟨h, by simp⟩, rfl⟩

theorem mem_neighborRels {g : Graph} {u : Uid} {r : Rel} : r ∈ neighborRels g u ↔ ∃ o, ⟨u, .rel r, o⟩ ∈ g := by
  unfold neighborRels
  simp only [mem_dedup, List.mem_filterMap, mem_gtriples, matchesPat_iff]
  constructor
  · rintro ⟨⟨s, p, o⟩, ⟨ht, h1, _, _⟩, h3⟩
    have := h1 _ rfl
    simp only at *
    subst_vars
    cases p <;> simp at h3
    subst h3
    exact ⟨o, ht⟩
  · rintro ⟨o, h⟩
    exact ⟨_, ⟨h, by simp⟩, rfl⟩

theorem nodup_neighborRels (g : Graph) (u : Uid) : (neighborRels g u).Nodup := nodup_dedup _

theorem mem_targets {g : Graph} {u : Uid} {r : Rel} {x : Uid} : x ∈ targets g u r ↔ ⟨u, .rel r, .cuds x⟩ ∈ g := by
  unfold targets
  simp only [List.mem_filterMap, mem_gtriples, matchesPat_iff]
  constructor
  · rintro ⟨⟨s, p, o⟩, ⟨ht, h1, h2, _⟩, h3⟩
    have := h1 _ rfl
    have := h2 _ rfl
    simp only at *
    subst_vars
    cases o <;> simp at h3
    subst h3
    exact ht
  · intro h
    exact ⟨_, ⟨h, by simp⟩, rfl⟩

theorem nodup_targets {g : Graph} (h : g.Nodup) (u : Uid) (r : Rel) : (targets g u r).Nodup := by
  unfold targets
  apply nodup_filterMap (nodup_gtriples h)
  rintro ⟨s, p, o⟩ ha ⟨s', p', o'⟩ ha' b hb hb'
  simp only [mem_gtriples, matchesPat_iff] at ha ha'
  obtain ⟨_, h1, h2, _⟩ := ha
  obtain ⟨_, h1', h2', _⟩ := ha'
  have e1 := h1 _ rfl
  have e2 := h2 _ rfl
  have e1' := h1' _ rfl
  have e2' := h2' _ rfl
  simp only at e1 e2 e1' e2' hb hb'
  subst e1 e2 e1' e2'
  have : o = .cuds b := by cases o <;> simp at hb; rw [hb]
  have : o' = .cuds b := by cases o' <;> simp at hb'; rw [hb']
  subst_vars
  rfl

/-! ### adding -/

theorem mem_setTarget {g : Graph} {u x : Uid} {r : Rel} {ocs : List Cls} {t : Triple} :
    t ∈ setTarget g u r x ocs ↔ t = ⟨u, .rel r, .cuds x⟩ ∨ t ∈ g ∨ ∃ c ∈ ocs, t = ⟨x, .type, .cls c⟩ := by
  unfold setTarget
  generalize hg : g.add ⟨u, .rel r, .cuds x⟩ = g1
  have h1 : t ∈ g1 ↔ t = ⟨u, .rel r, .cuds x⟩ ∨ t ∈ g := by rw [← hg]; simp
  rw [show (t = ⟨u, .rel r, .cuds x⟩ ∨ t ∈ g ∨ ∃ c ∈ ocs, t = ⟨x, .type, .cls c⟩) ↔ (t ∈ g1 ∨ ∃ c ∈ ocs, t = ⟨x, .type, .cls c⟩) by
    rw [h1, or_assoc]]
  clear h1 hg
  induction ocs generalizing g1 with
  | nil => simp
  | cons c cs ih =>
    rw [List.foldl_cons]
    refine (ih _).trans ?_
    simp only [mem_gadd, List.mem_cons, exists_eq_or_imp]
    constructor
    · rintro ((h | h) | h)
      · exact Or.inr (Or.inl h)
      · exact Or.inl h
      · exact Or.inr (Or.inr h)
    · rintro (h | h | h)
      · exact Or.inl (Or.inr h)
      · exact Or.inl (Or.inl h)
      · exact Or.inr h

theorem nodup_setTarget {g : Graph} {u x : Uid} {r : Rel} {ocs : List Cls} (h : g.Nodup) : (setTarget g u r x ocs).Nodup := by
  unfold setTarget
  have h1 := nodup_gadd (t := ⟨u, .rel r, .cuds x⟩) h
  revert h1
  generalize g.add ⟨u, .rel r, .cuds x⟩ = g1
  induction ocs generalizing g1 with
  | nil => exact id
  | cons c cs ih => intro h1; exact ih _ (nodup_gadd h1)

/-- The effect of `_add_direct` on the graph. -/
theorem mem_addDirect {g : Graph} {u x : Uid} {r : Rel} {t : Triple} :
    t ∈ addDirect g u x r ↔ t = ⟨u, .rel r, .cuds x⟩ ∨ t ∈ g := by
  unfold addDirect
  simp only
  split
  · rename_i hr
    rw [gremove_eq_self, mem_setTarget]
    · constructor
      · rintro (h | h | ⟨c, hc, rfl⟩)
        · exact Or.inl h
        · exact Or.inr h
        · exact Or.inr (mem_oclasses.1 hc)
      · rintro (h | h)
        · exact Or.inl h
        · exact Or.inr (Or.inl h)
    · intro t ht
      rw [Bool.eq_false_iff]
      intro hm
      rw [matchesPat_iff] at hm
      apply hr
      rw [mem_neighborRels]
      refine ⟨t.o, ?_⟩
      have h1 := hm.1 _ rfl
      have h2 := hm.2.1 _ rfl
      rw [h1, h2]
      exact ht
  · split
    · rw [mem_setTarget]
      constructor
      · rintro (h | h | ⟨c, hc, rfl⟩)
        · exact Or.inl h
        · exact Or.inr h
        · exact Or.inr (mem_oclasses.1 hc)
      · rintro (h | h)
        · exact Or.inl h
        · exact Or.inr (Or.inl h)
    · rename_i h
      simp only [mem_targets, Decidable.not_not] at h
      constructor
      · exact Or.inr
      · rintro (rfl | h') <;> assumption

theorem nodup_addDirect {g : Graph} {u x : Uid} {r : Rel} (h : g.Nodup) : (addDirect g u x r).Nodup := by
  unfold addDirect
  simp only
  split
  · exact nodup_setTarget (nodup_gremove h)
  · split
    · exact nodup_setTarget h
    · exact h

/-! ### removing -/

theorem mem_removeDirect {g : Graph} {u x : Uid} {r : Rel} {t : Triple} :
    t ∈ removeDirect g u r x ↔ t ∈ g ∧ t ≠ ⟨u, .rel r, .cuds x⟩ := by
  unfold removeDirect delTarget
  rw [mem_gremove, Bool.eq_false_iff, ne_eq, matchesPat_iff]
  obtain ⟨s, p, o⟩ := t
  simp only [Option.some.injEq, forall_eq', ne_eq, Triple.mk.injEq]
  constructor
  · rintro ⟨h, h2⟩
    exact ⟨h, fun ⟨a, b, c⟩ => h2 ⟨a.symm, b.symm, c.symm⟩⟩
  · rintro ⟨h, h2⟩
    exact ⟨h, fun ⟨a, b, c⟩ => h2 ⟨a.symm, b.symm, c.symm⟩⟩

theorem nodup_removeDirect {g : Graph} {u x : Uid} {r : Rel} (h : g.Nodup) : (removeDirect g u r x).Nodup := nodup_gremove h

/-! ### mappings -/

/-- `(u, r)` is recorded in the mapping. -/
def Mapping.Has (m : Mapping) (u : Uid) (r : Rel) : Prop := ∃ rs, (u, rs) ∈ m ∧ r ∈ rs

theorem Mapping.has_insert {m : Mapping} {u u' : Uid} {r r' : Rel} (hn : (m.map (·.1)).Nodup) :
    (m.insert u r).Has u' r' ↔ (u' = u ∧ r' = r) ∨ m.Has u' r' := by
  induction m with
  | nil =>
    simp only [Mapping.insert, Mapping.Has, List.mem_singleton, Prod.mk.injEq, List.not_mem_nil, false_and, exists_const, or_false]
    constructor
    · rintro ⟨rs, ⟨h1, rfl⟩, h2⟩; exact ⟨h1, by simpa using h2⟩
    · rintro ⟨h1, h2⟩; exact ⟨[r], ⟨h1, rfl⟩, by simp [h2]⟩
  | cons e m ih =>
    obtain ⟨v, rs⟩ := e
    simp only [List.map_cons, List.nodup_cons] at hn
    unfold Mapping.insert
    split
    · rename_i hv
      subst hv
      constructor
      · rintro ⟨rs', hmem, hr'⟩
        rcases List.mem_cons.1 hmem with heq | hmem
        · obtain ⟨rfl, rfl⟩ := Prod.mk.inj heq
          split at hr'
          · exact Or.inr ⟨rs, by simp, hr'⟩
          · rcases List.mem_append.1 hr' with hr' | hr'
            · exact Or.inr ⟨rs, by simp, hr'⟩
            · exact Or.inl ⟨rfl, by simpa using hr'⟩
        · exact Or.inr ⟨rs', by simp [hmem], hr'⟩
      · rintro (⟨rfl, rfl⟩ | ⟨rs', hmem, hr'⟩)
        · refine ⟨_, List.mem_cons_self, ?_⟩
          split
          · assumption
          · simp
        · rcases List.mem_cons.1 hmem with heq | hmem
          · obtain ⟨rfl, rfl⟩ := Prod.mk.inj heq
            refine ⟨_, List.mem_cons_self, ?_⟩
            split
            · exact hr'
            · simp [hr']
          · exact ⟨rs', by simp [hmem], hr'⟩
    · rename_i hv
      have ih' := ih hn.2
      constructor
      · rintro ⟨rs', hmem, hr'⟩
        rcases List.mem_cons.1 hmem with heq | hmem
        · exact Or.inr ⟨rs', by simp [heq], hr'⟩
        · rcases ih'.1 ⟨rs', hmem, hr'⟩ with h | ⟨rs'', h1, h2⟩
          · exact Or.inl h
          · exact Or.inr ⟨rs'', by simp [h1], h2⟩
      · rintro (h | ⟨rs', hmem, hr'⟩)
        · obtain ⟨rs'', h1, h2⟩ := ih'.2 (Or.inl h)
          exact ⟨rs'', by simp [h1], h2⟩
        · rcases List.mem_cons.1 hmem with heq | hmem
          · exact ⟨rs', by simp [heq], hr'⟩
          · obtain ⟨rs'', h1, h2⟩ := ih'.2 (Or.inr ⟨rs', hmem, hr'⟩)
            exact ⟨rs'', by simp [h1], h2⟩

theorem Mapping.mem_keys_insert {m : Mapping} {u u' : Uid} {r : Rel} :
    u' ∈ (m.insert u r).map (·.1) ↔ u' = u ∨ u' ∈ m.map (·.1) := by
  induction m with
  | nil => simp [Mapping.insert]
  | cons e m ih =>
    obtain ⟨v, rs⟩ := e
    unfold Mapping.insert
    split
    · rename_i hv; subst hv; simp
    · simp only [List.map_cons, List.mem_cons, ih]
      constructor
      · rintro (h | h | h)
        · exact Or.inr (Or.inl h)
        · exact Or.inl h
        · exact Or.inr (Or.inr h)
      · rintro (h | h | h)
        · exact Or.inr (Or.inl h)
        · exact Or.inl h
        · exact Or.inr (Or.inr h)

theorem Mapping.nodup_insert {m : Mapping} {u : Uid} {r : Rel} (hn : (m.map (·.1)).Nodup) : ((m.insert u r).map (·.1)).Nodup := by
  induction m with
  | nil => simp [Mapping.insert]
  | cons e m ih =>
    obtain ⟨v, rs⟩ := e
    simp only [List.map_cons, List.nodup_cons] at hn
    unfold Mapping.insert
    split
    · simpa using hn
    · rename_i hv
      simp only [List.map_cons, List.nodup_cons]
      refine ⟨?_, ih hn.2⟩
      rw [Mapping.mem_keys_insert]
      rintro (h | h)
      · exact hv h
      · exact hn.1 h

/-- Every recorded set of relationships is non-empty. -/
def Mapping.NonEmpty (m : Mapping) : Prop := ∀ u rs, (u, rs) ∈ m → rs ≠ []

theorem Mapping.nonEmpty_insert {m : Mapping} {u : Uid} {r : Rel} (h : m.NonEmpty) : (m.insert u r).NonEmpty := by
  induction m with
  | nil => intro u' rs hm; simp [Mapping.insert] at hm; simp [hm.2]
  | cons e m ih =>
    obtain ⟨v, rs⟩ := e
    have h2 : Mapping.NonEmpty m := fun u' rs' hm => h u' rs' (by simp [hm])
    unfold Mapping.insert
    split
    · intro u' rs' hm
      rcases List.mem_cons.1 hm with heq | hm
      · obtain ⟨rfl, rfl⟩ := Prod.mk.inj heq
        have := h u' rs (by simp)
        split <;> simp [this]
      · exact h2 u' rs' hm
    · intro u' rs' hm
      rcases List.mem_cons.1 hm with heq | hm
      · exact h u' rs' (by simp [heq])
      · exact ih h2 u' rs' hm

theorem Mapping.mem_keys_iff {m : Mapping} (hne : m.NonEmpty) {u : Uid} : u ∈ m.map (·.1) ↔ ∃ r, m.Has u r := by
  constructor
  · intro h
    obtain ⟨⟨u', rs⟩, hm, rfl⟩ := List.mem_map.1 h
    cases rs with
    | nil => exact absurd rfl (hne _ _ hm)
    | cons r rs => exact ⟨r, r :: rs, hm, by simp⟩
  · rintro ⟨r, rs, hm, _⟩
    exact List.mem_map.2 ⟨_, hm, rfl⟩

theorem Mapping.insert_ne_nil {m : Mapping} {u : Uid} {r : Rel} : m.insert u r ≠ [] := by
  cases m with
  | nil => simp [Mapping.insert]
  | cons e m => obtain ⟨v, rs⟩ := e; unfold Mapping.insert; split <;> simp

/-! ### `_get_by_oclass` -/

/-- The class filter of `get`/`remove`. -/
def clsOk (O : Onto) (g : Graph) (oc : Option Cls) (x : Uid) : Prop :=
  ∀ c, oc = some c → ∃ t ∈ oclasses g x, O.subCls t c = true

theorem byOclassInner_spec (O : Onto) (g : Graph) (oc : Option Cls) (r : Rel) (us : List Uid) (m : Mapping)
    (hn : (m.map (·.1)).Nodup) (hne : m.NonEmpty) :
    (((byOclassInner O g oc r us m).map (·.1)).Nodup ∧ (byOclassInner O g oc r us m).NonEmpty) ∧
    ∀ u r', (byOclassInner O g oc r us m).Has u r' ↔ m.Has u r' ∨ (r' = r ∧ u ∈ us ∧ clsOk O g oc u) := by
  induction us generalizing m with
  | nil => simp [byOclassInner, hn, hne]
  | cons x us ih =>
    unfold byOclassInner
    have hok : clsTest O g oc x = true ↔ clsOk O g oc x := by
      cases oc with
      | none => simp [clsOk, clsTest]
      | some c => simp [clsOk, clsTest, List.any_eq_true]
    generalize clsTest O g oc x = b at hok
    cases b with
    | false =>
      simp only [Bool.false_eq_true, false_iff] at hok
      simp only [Bool.false_eq_true, ↓reduceIte]
      obtain ⟨h1, h2⟩ := ih m hn hne
      refine ⟨h1, ?_⟩
      intro u r'
      rw [h2]
      constructor
      · rintro (h | ⟨a, b, c⟩)
        · exact Or.inl h
        · exact Or.inr ⟨a, by simp [b], c⟩
      · rintro (h | ⟨a, b, c⟩)
        · exact Or.inl h
        · rcases List.mem_cons.1 b with rfl | b
          · exact absurd c hok
          · exact Or.inr ⟨a, b, c⟩
    | true =>
      simp only [true_iff] at hok
      simp only [↓reduceIte]
      obtain ⟨h1, h2⟩ := ih (m.insert x r) (Mapping.nodup_insert hn) (Mapping.nonEmpty_insert hne)
      refine ⟨h1, ?_⟩
      intro u r'
      rw [h2, Mapping.has_insert hn]
      constructor
      · rintro ((⟨rfl, rfl⟩ | h) | ⟨a, b, c⟩)
        · exact Or.inr ⟨rfl, by simp, hok⟩
        · exact Or.inl h
        · exact Or.inr ⟨a, by simp [b], c⟩
      · rintro (h | ⟨a, b, c⟩)
        · exact Or.inl (Or.inr h)
        · rcases List.mem_cons.1 b with rfl | b
          · exact Or.inl (Or.inl ⟨rfl, a⟩)
          · exact Or.inr ⟨a, b, c⟩

theorem getByOclass_spec (O : Onto) (g : Graph) (self : Uid) (oc : Option Cls) (rels : List Rel) :
    (((getByOclass O g self oc rels).2.map (·.1)).Nodup ∧ (getByOclass O g self oc rels).2.NonEmpty) ∧
    ∀ u r, (getByOclass O g self oc rels).2.Has u r ↔ r ∈ rels ∧ u ∈ targets g self r ∧ clsOk O g oc u := by
  have key : ∀ (rels : List Rel) (m : Mapping), (m.map (·.1)).Nodup → m.NonEmpty →
      (((rels.foldl (fun m r => byOclassInner O g oc r (targets g self r) m) m).map (·.1)).Nodup ∧
        Mapping.NonEmpty (rels.foldl (fun m r => byOclassInner O g oc r (targets g self r) m) m)) ∧
      ∀ u r, Mapping.Has (rels.foldl (fun m r => byOclassInner O g oc r (targets g self r) m) m) u r ↔
        m.Has u r ∨ (r ∈ rels ∧ u ∈ targets g self r ∧ clsOk O g oc u) := by
    intro rels
    induction rels with
    | nil => intro m hn hne; simp [hn, hne]
    | cons r rs ih =>
      intro m hn hne
      obtain ⟨⟨h1, h1'⟩, h2⟩ := byOclassInner_spec O g oc r (targets g self r) m hn hne
      obtain ⟨h3, h4⟩ := ih _ h1 h1'
      refine ⟨h3, ?_⟩
      intro u r'
      rw [List.foldl_cons, h4, h2]
      constructor
      · rintro ((h | ⟨rfl, b, c⟩) | ⟨a, b, c⟩)
        · exact Or.inl h
        · exact Or.inr ⟨by simp, b, c⟩
        · exact Or.inr ⟨by simp [a], b, c⟩
      · rintro (h | ⟨a, b, c⟩)
        · exact Or.inl (Or.inl h)
        · rcases List.mem_cons.1 a with rfl | a
          · exact Or.inl (Or.inr ⟨rfl, b, c⟩)
          · exact Or.inr ⟨a, b, c⟩
  have := key rels [] (by simp) (by intro u rs h; cases h)
  unfold getByOclass
  refine ⟨this.1, ?_⟩
  intro u r
  rw [this.2]
  simp [Mapping.Has]

/-! ### `_get_by_uids` -/

theorem mem_enumFrom {α : Type} {n i : Nat} {l : List α} {x : α} :
    (i, x) ∈ enumFrom n l ↔ n ≤ i ∧ l[i - n]? = some x := by
  induction l generalizing n with
  | nil => simp [enumFrom]
  | cons y ys ih =>
    simp only [enumFrom, List.mem_cons, Prod.mk.injEq, ih]
    constructor
    · rintro (⟨rfl, rfl⟩ | ⟨h1, h2⟩)
      · simp
      · refine ⟨by omega, ?_⟩
        rw [show i - n = (i - (n + 1)) + 1 by omega]
        simpa using h2
    · rintro ⟨h1, h2⟩
      by_cases h : i = n
      · subst h; simp at h2; exact Or.inl ⟨rfl, h2.symm⟩
      · refine Or.inr ⟨by omega, ?_⟩
        rw [show i - n = (i - (n + 1)) + 1 by omega] at h2
        simpa using h2

theorem enumFrom_map_snd {α : Type} (n : Nat) (l : List α) : (enumFrom n l).map (·.2) = l := by
  induction l generalizing n with
  | nil => rfl
  | cons x xs ih => simp [enumFrom, ih]

theorem byUidsInner_spec (g : Graph) (self : Uid) (r : Rel) (it : List (Nat × Uid)) (found : List Nat) (m : Mapping)
    (hn : (m.map (·.1)).Nodup) (hne : m.NonEmpty) :
    (∀ i, i ∈ (byUidsInner g self r it found m).1 ↔ i ∈ found ∨ ∃ u, (i, u) ∈ it ∧ u ∈ targets g self r) ∧
    (((byUidsInner g self r it found m).2.map (·.1)).Nodup ∧ (byUidsInner g self r it found m).2.NonEmpty) ∧
    (∀ u r', (byUidsInner g self r it found m).2.Has u r' ↔ m.Has u r' ∨ (r' = r ∧ (∃ i, (i, u) ∈ it) ∧ u ∈ targets g self r)) := by
  induction it generalizing found m with
  | nil => simp [byUidsInner, hn, hne]
  | cons e it ih =>
    obtain ⟨i0, u0⟩ := e
    unfold byUidsInner
    split
    · rename_i hu
      obtain ⟨h1, h2, h3⟩ := ih (found ++ [i0]) (m.insert u0 r) (Mapping.nodup_insert hn) (Mapping.nonEmpty_insert hne)
      refine ⟨?_, h2, ?_⟩
      · intro i
        rw [h1]
        simp only [List.mem_append, List.mem_cons, List.not_mem_nil, or_false, Prod.mk.injEq]
        constructor
        · rintro ((h | rfl) | ⟨u, h, h'⟩)
          · exact Or.inl h
          · exact Or.inr ⟨u0, Or.inl ⟨rfl, rfl⟩, hu⟩
          · exact Or.inr ⟨u, Or.inr h, h'⟩
        · rintro (h | ⟨u, ⟨rfl, rfl⟩ | h, h'⟩)
          · exact Or.inl (Or.inl h)
          · exact Or.inl (Or.inr rfl)
          · exact Or.inr ⟨u, h, h'⟩
      · intro u r'
        rw [h3, Mapping.has_insert hn]
        simp only [List.mem_cons, Prod.mk.injEq]
        constructor
        · rintro ((⟨rfl, rfl⟩ | h) | ⟨rfl, ⟨i, h⟩, h'⟩)
          · exact Or.inr ⟨rfl, ⟨i0, Or.inl ⟨rfl, rfl⟩⟩, hu⟩
          · exact Or.inl h
          · exact Or.inr ⟨rfl, ⟨i, Or.inr h⟩, h'⟩
        · rintro (h | ⟨rfl, ⟨i, ⟨_, rfl⟩ | h⟩, h'⟩)
          · exact Or.inl (Or.inr h)
          · exact Or.inl (Or.inl ⟨rfl, rfl⟩)
          · exact Or.inr ⟨rfl, ⟨i, h⟩, h'⟩
    · rename_i hu
      obtain ⟨h1, h2, h3⟩ := ih found m hn hne
      refine ⟨?_, h2, ?_⟩
      · intro i
        rw [h1]
        simp only [List.mem_cons, Prod.mk.injEq]
        constructor
        · rintro (h | ⟨u, h, h'⟩)
          · exact Or.inl h
          · exact Or.inr ⟨u, Or.inr h, h'⟩
        · rintro (h | ⟨u, ⟨rfl, rfl⟩ | h, h'⟩)
          · exact Or.inl h
          · exact absurd h' hu
          · exact Or.inr ⟨u, h, h'⟩
      · intro u r'
        rw [h3]
        simp only [List.mem_cons, Prod.mk.injEq]
        constructor
        · rintro (h | ⟨rfl, ⟨i, h⟩, h'⟩)
          · exact Or.inl h
          · exact Or.inr ⟨rfl, ⟨i, Or.inr h⟩, h'⟩
        · rintro (h | ⟨rfl, ⟨i, ⟨_, rfl⟩ | h⟩, h'⟩)
          · exact Or.inl h
          · exact absurd h' hu
          · exact Or.inr ⟨rfl, ⟨i, h⟩, h'⟩

theorem byUidsLoop_spec (g : Graph) (self : Uid) (e : List (Nat × Uid))
    (hidx : ∀ i u u', (i, u) ∈ e → (i, u') ∈ e → u = u') (rels : List Rel) (nf : List (Nat × Uid)) (m : Mapping)
    (done : Rel → Prop)
    (hn : (m.map (·.1)).Nodup) (hne : m.NonEmpty)
    (hnf : ∀ p, p ∈ nf ↔ p ∈ e ∧ ∀ r, done r → p.2 ∉ targets g self r)
    (hm : ∀ u r, m.Has u r ↔ done r ∧ (∃ i, (i, u) ∈ e) ∧ u ∈ targets g self r) :
    (∀ p, p ∈ (byUidsLoop g self e rels nf m).1 ↔ p ∈ e ∧ ∀ r, (done r ∨ r ∈ rels) → p.2 ∉ targets g self r) ∧
    (((byUidsLoop g self e rels nf m).2.map (·.1)).Nodup ∧ (byUidsLoop g self e rels nf m).2.NonEmpty) ∧
    (∀ u r, (byUidsLoop g self e rels nf m).2.Has u r ↔ (done r ∨ r ∈ rels) ∧ (∃ i, (i, u) ∈ e) ∧ u ∈ targets g self r) := by
  induction rels generalizing nf m done with
  | nil => simp [byUidsLoop, hn, hne, hm]; simpa using hnf
  | cons r rs ih =>
    unfold byUidsLoop
    simp only
    -- the iterator always ranges over all of `e`
    have hit : ∀ p, p ∈ (if m = [] then nf else e) ↔ p ∈ e := by
      intro p
      split
      · rename_i hm0
        rw [hnf]
        constructor
        · exact fun h => h.1
        · intro hp
          refine ⟨hp, ?_⟩
          intro r' hd ht
          have := (hm p.2 r').2 ⟨hd, ⟨p.1, hp⟩, ht⟩
          rw [hm0] at this
          simp [Mapping.Has] at this
      · rfl
    generalize hitd : (if m = [] then nf else e) = it at hit
    obtain ⟨h1, h2, h3⟩ := byUidsInner_spec g self r it [] m hn hne
    have := ih (nf.filter fun e => e.1 ∉ (byUidsInner g self r it [] m).1) (byUidsInner g self r it [] m).2
      (fun r' => done r' ∨ r' = r) h2.1 h2.2 ?_ ?_
    · obtain ⟨k1, k2, k3⟩ := this
      refine ⟨?_, k2, ?_⟩
      · intro p
        rw [k1]
        simp only [List.mem_cons, or_assoc]
      · intro u r'
        rw [k3]
        simp only [List.mem_cons, or_assoc]
    · intro p
      obtain ⟨i, u⟩ := p
      simp only [List.mem_filter, hnf, h1, List.not_mem_nil, false_or, decide_eq_true_eq, hit]
      constructor
      · rintro ⟨⟨hp, hd⟩, hno⟩
        refine ⟨hp, ?_⟩
        rintro r' (hr' | rfl)
        · exact hd r' hr'
        · intro ht; exact hno ⟨u, hp, ht⟩
      · rintro ⟨hp, hd⟩
        refine ⟨⟨hp, fun r' hr' => hd r' (Or.inl hr')⟩, ?_⟩
        rintro ⟨u', hu', ht⟩
        have := hidx _ _ _ hp hu'
        subst this
        exact hd r (Or.inr rfl) ht
    · intro u r'
      rw [h3, hm]
      simp only [hit]
      constructor
      · rintro (⟨a, b, c⟩ | ⟨rfl, b, c⟩)
        · exact ⟨Or.inl a, b, c⟩
        · exact ⟨Or.inr rfl, b, c⟩
      · rintro ⟨a | rfl, b, c⟩
        · exact Or.inl ⟨a, b, c⟩
        · exact Or.inr ⟨rfl, b, c⟩

/-- `_get_by_uids` answers each position correctly and the mapping is exact. -/
theorem getByUids_spec (g : Graph) (self : Uid) (uids : List Uid) (rels : List Rel) :
    (getByUids g self uids rels).1 = uids.map (fun u => if ∃ r ∈ rels, u ∈ targets g self r then some u else none) ∧
    (((getByUids g self uids rels).2.map (·.1)).Nodup ∧ (getByUids g self uids rels).2.NonEmpty) ∧
    (∀ u r, (getByUids g self uids rels).2.Has u r ↔ r ∈ rels ∧ u ∈ uids ∧ u ∈ targets g self r) := by
  have hidx : ∀ i u u', (i, u) ∈ enumFrom 0 uids → (i, u') ∈ enumFrom 0 uids → u = u' := by
    intro i u u' h h'
    rw [mem_enumFrom] at h h'
    have := h.2.symm.trans h'.2
    exact Option.some.inj this
  obtain ⟨h1, h2, h3⟩ := byUidsLoop_spec g self (enumFrom 0 uids) hidx rels (enumFrom 0 uids) [] (fun _ => False)
    (by simp) (by intro u rs h; cases h) (by simp) (by simp [Mapping.Has])
  have hmem : ∀ u, (∃ i, (i, u) ∈ enumFrom 0 uids) ↔ u ∈ uids := by
    intro u
    conv => rhs; rw [← enumFrom_map_snd 0 uids]
    rw [List.mem_map]
    constructor
    · rintro ⟨i, h⟩; exact ⟨_, h, rfl⟩
    · rintro ⟨⟨i, u'⟩, h, rfl⟩; exact ⟨i, h⟩
  refine ⟨?_, h2, ?_⟩
  · unfold getByUids
    simp only
    have hR : uids.map (fun u => if ∃ r ∈ rels, u ∈ targets g self r then some u else none) =
        (enumFrom 0 uids).map (fun p => if ∃ r ∈ rels, p.2 ∈ targets g self r then some p.2 else none) := by
      conv => lhs; rw [← enumFrom_map_snd 0 uids]
      rw [List.map_map]; rfl
    rw [hR]
    apply List.map_congr_left
    rintro ⟨i, u⟩ hp
    simp only
    have hiff : i ∈ (byUidsLoop g self (enumFrom 0 uids) rels (enumFrom 0 uids) []).1.map (·.1) ↔
        ¬ ∃ r ∈ rels, u ∈ targets g self r := by
      rw [List.mem_map]
      constructor
      · rintro ⟨⟨i', u'⟩, hp', rfl⟩
        rw [h1] at hp'
        have := hidx _ _ _ hp hp'.1
        subst this
        rintro ⟨r, hr, ht⟩
        exact hp'.2 r (Or.inr hr) ht
      · intro hno
        refine ⟨(i, u), ?_, rfl⟩
        rw [h1]
        refine ⟨hp, ?_⟩
        rintro r (h | hr) ht
        · exact h
        · exact hno ⟨r, hr, ht⟩
    by_cases hex : ∃ r ∈ rels, u ∈ targets g self r
    · rw [if_pos hex, if_neg (fun h => (hiff.1 h) hex)]
    · rw [if_neg hex, if_pos (hiff.2 hex)]
  · intro u r
    have := h3 u r
    simp only [false_or, hmem] at this
    exact this

/-! ### the remove loop -/

theorem removeRels_spec (O : Onto) (reg : List Uid) (self x : Uid) (rs : List Rel) (g : Graph) (hx : x ∈ reg) :
    (removeRels O reg self x rs g).1 = .ok () ∧
    (g.Nodup → (removeRels O reg self x rs g).2.Nodup) ∧
    ∀ t, t ∈ (removeRels O reg self x rs g).2 ↔
      t ∈ g ∧ ∀ r ∈ rs, t ≠ ⟨self, .rel r, .cuds x⟩ ∧ t ≠ ⟨x, .rel (O.inv r), .cuds self⟩ := by
  induction rs generalizing g with
  | nil => simp [removeRels]
  | cons r rs ih =>
    unfold removeRels
    simp only [hx, ↓reduceIte]
    obtain ⟨h1, h2, h3⟩ := ih (removeInverse O (removeDirect g self r x) x r self)
    refine ⟨h1, fun hg => h2 (nodup_removeDirect (nodup_removeDirect hg)), ?_⟩
    intro t
    rw [h3, removeInverse, mem_removeDirect, mem_removeDirect]
    simp only [List.mem_cons, forall_eq_or_imp, and_assoc]

theorem removeLoop_spec (O : Onto) (reg : List Uid) (self : Uid) (m : Mapping) (g : Graph) (hreg : ∀ u r, m.Has u r → u ∈ reg)
    (hne : m.NonEmpty) :
    (removeLoop O reg self m g).1 = .ok () ∧
    (g.Nodup → (removeLoop O reg self m g).2.Nodup) ∧
    ∀ t, t ∈ (removeLoop O reg self m g).2 ↔
      t ∈ g ∧ ∀ x r, m.Has x r → t ≠ ⟨self, .rel r, .cuds x⟩ ∧ t ≠ ⟨x, .rel (O.inv r), .cuds self⟩ := by
  induction m generalizing g with
  | nil => simp [removeLoop, Mapping.Has]
  | cons e m ih =>
    obtain ⟨x, rs⟩ := e
    have hx : x ∈ reg := by
      cases rs with
      | nil => exact absurd rfl (hne x [] (by simp))
      | cons r rs => exact hreg x r ⟨r :: rs, by simp, by simp⟩
    unfold removeLoop
    obtain ⟨h1, h2, h3⟩ := removeRels_spec O reg self x rs g hx
    generalize hR : removeRels O reg self x rs g = R at h1 h2 h3
    obtain ⟨res, g1⟩ := R
    simp only at h1 h2 h3
    subst h1
    simp only
    obtain ⟨k1, k2, k3⟩ := ih g1 (fun u r ⟨rs', h, h'⟩ => hreg u r ⟨rs', by simp [h], h'⟩)
      (fun u rs' h => hne u rs' (by simp [h]))
    refine ⟨k1, fun hg => k2 (h2 hg), ?_⟩
    intro t
    rw [k3, h3]
    constructor
    · rintro ⟨⟨ht, ha⟩, hb⟩
      refine ⟨ht, ?_⟩
      rintro y r ⟨rs', hmem, hr⟩
      rcases List.mem_cons.1 hmem with heq | hmem
      · obtain ⟨rfl, rfl⟩ := Prod.mk.inj heq
        exact ha r hr
      · exact hb y r ⟨rs', hmem, hr⟩
    · rintro ⟨ht, ha⟩
      refine ⟨⟨ht, fun r hr => ha x r ⟨rs, by simp, hr⟩⟩, ?_⟩
      rintro y r ⟨rs', hmem, hr⟩
      exact ha y r ⟨rs', by simp [hmem], hr⟩

/-! ### loading -/

theorem loadCudsObjects_eq (s : Sess) (us : List (Option Uid)) :
    loadCudsObjects s us = us.map (fun o => o.bind fun u => if u ∈ s.reg then some u else none) := by
  unfold loadCudsObjects load
  have : ∀ us : List (Option Uid), loadCudsObjects.go us ((us.filterMap id).map fun u => if u ∈ s.reg then some u else none) =
      us.map (fun o => o.bind fun u => if u ∈ s.reg then some u else none) := by
    intro us
    induction us with
    | nil => rfl
    | cons o us ih =>
      cases o with
      | none => simp [loadCudsObjects.go, ih]
      | some u => simp [loadCudsObjects.go, ih]
  exact this us

end Osp.Cuds
