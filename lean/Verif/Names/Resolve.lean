import Verif.Names.Model
/-!
# Resolution of IRIs to namespaces and entities (C54)
-/
namespace Osp.Names

/-- The namespace IRI belongs to a namespace with a name and is a prefix of the IRI. -/
def Fits (b : Text × Text) (iri : Text) : Prop := b.1 ≠ [] ∧ ∃ rest, iri = b.2 ++ rest

theorem fits_iff (b : Text × Text) (iri : Text) : (b.2.isPrefixOf iri && !b.1.isEmpty) = true ↔ Fits b iri := by
  rw [Bool.and_eq_true, List.isPrefixOf_iff_prefix]
  unfold Fits
  constructor
  · rintro ⟨⟨r, h⟩, k⟩
    exact ⟨by simpa using k, r, h.symm⟩
  · rintro ⟨k, r, h⟩
    exact ⟨⟨r, h.symm⟩, by simpa using k⟩

theorem not_fits {b : Text × Text} {iri : Text} (h : ¬ Fits b iri) : (b.2.isPrefixOf iri && !b.1.isEmpty) = false := by
  rw [← fits_iff] at h
  exact Bool.eq_false_iff.2 h

/-- **C54.** If some bound namespace with a name is a prefix of the IRI, a bound one is used: the first such in the order of the namespace manager. -/
theorem bound_namespace_used (R : Reg) (iri : Text) (h : ∃ b ∈ R.binds, Fits b iri) :
    Fits (R.resolve iri) iri ∧ ∃ l r, R.binds = l ++ R.resolve iri :: r ∧ ∀ b ∈ l, ¬ Fits b iri := by
  obtain ⟨b, hb, hf⟩ := h
  unfold Reg.resolve
  cases hx : R.binds.find? (fun b => b.2.isPrefixOf iri && !b.1.isEmpty) with
  | none =>
    rw [List.find?_eq_none] at hx
    exact absurd ((fits_iff b iri).2 hf) (hx b hb)
  | some c =>
    rw [List.find?_eq_some_iff_append] at hx
    obtain ⟨h1, l, r, h2, h3⟩ := hx
    refine ⟨(fits_iff c iri).1 h1, l, r, h2, fun d hd hk => ?_⟩
    have := h3 d hd
    rw [(fits_iff d iri).2 hk] at this
    exact absurd this (by decide)

theorem resolve_unbound (R : Reg) (iri : Text) (h : ∀ b ∈ R.binds, ¬ Fits b iri) : R.resolve iri =
    (if '#' ∈ iri then (splitOn '#' iri)[0]?.getD [] ++ ['#'] else joinWith ['/'] (splitOn '/' iri).dropLast ++ ['/'],
     if '#' ∈ iri then (splitOn '#' iri)[0]?.getD [] ++ ['#'] else joinWith ['/'] (splitOn '/' iri).dropLast ++ ['/']) := by
  unfold Reg.resolve
  rw [List.find?_eq_none.2 (fun b hb => by rw [fits_iff]; exact h b hb)]

/-- **C54.** Otherwise an IRI with a hash is split after the first one. -/
theorem unbound_split_at_hash (R : Reg) (a b : Text) (ha : '#' ∉ a) (h : ∀ x ∈ R.binds, ¬ Fits x (a ++ '#' :: b)) :
    R.resolve (a ++ '#' :: b) = (a ++ ['#'], a ++ ['#']) := by
  rw [resolve_unbound R _ h, if_pos (by simp), splitOn_append _ _ _ ha]
  rfl

theorem splitOn_ne_nil (c : Char) (t : Text) : splitOn c t ≠ [] := by
  cases t with
  | nil => simp [splitOn]
  | cons x t =>
    unfold splitOn
    split
    · simp
    · split <;> simp

theorem splitOn_last (c : Char) (a b : Text) (hb : c ∉ b) : splitOn c (a ++ c :: b) = splitOn c a ++ [b] := by
  induction a with
  | nil =>
    show splitOn c (c :: b) = splitOn c [] ++ [b]
    simp [splitOn, splitOn_none c b hb]
  | cons x a ih =>
    show splitOn c (x :: (a ++ c :: b)) = splitOn c (x :: a) ++ [b]
    unfold splitOn
    split
    · rw [ih]; rfl
    · rw [ih]
      cases hs : splitOn c a with
      | nil => exact absurd hs (splitOn_ne_nil c a)
      | cons y ys => rfl

theorem joinWith_splitOn (c : Char) (a : Text) : joinWith [c] (splitOn c a) = a := by
  induction a with
  | nil => rfl
  | cons x a ih =>
    unfold splitOn
    split
    · rename_i h
      subst h
      cases hs : splitOn x a with
      | nil => exact absurd hs (splitOn_ne_nil x a)
      | cons y ys =>
        rw [hs] at ih
        show [] ++ [x] ++ joinWith [x] (y :: ys) = x :: a
        rw [ih]; rfl
    · cases hs : splitOn c a with
      | nil => exact absurd hs (splitOn_ne_nil c a)
      | cons y ys =>
        rw [hs] at ih
        cases ys with
        | nil => simp only [joinWith] at ih ⊢; rw [ih]
        | cons z zs =>
          simp only [joinWith] at ih ⊢
          simp only [List.cons_append, List.append_assoc] at ih ⊢
          rw [ih]

/-- **C54.** An IRI without hash is split after the last slash. -/
theorem unbound_split_at_slash (R : Reg) (a b : Text) (hb : '/' ∉ b) (hh : '#' ∉ a ++ '/' :: b) (h : ∀ x ∈ R.binds, ¬ Fits x (a ++ '/' :: b)) :
    R.resolve (a ++ '/' :: b) = (a ++ ['/'], a ++ ['/']) := by
  rw [resolve_unbound R _ h, if_neg hh, splitOn_last _ _ _ hb, List.dropLast_concat, joinWith_splitOn]

/-- What is needed of an IRI. -/
def Resolvable (R : Reg) (iri : Text) : Prop := (∃ b ∈ R.binds, Fits b iri) ∨ '#' ∈ iri ∨ '/' ∈ iri

theorem last_split (c : Char) (t : Text) (h : c ∈ t) : ∃ a b, t = a ++ c :: b ∧ c ∉ b := by
  induction t with
  | nil => simp at h
  | cons x t ih =>
    by_cases hc : c ∈ t
    · obtain ⟨a, b, h1, h2⟩ := ih hc
      exact ⟨x :: a, b, by rw [h1]; rfl, h2⟩
    · obtain rfl : c = x := by
        rcases List.mem_cons.1 h with h | h
        · exact h
        · exact absurd h hc
      exact ⟨[], t, rfl, hc⟩

theorem first_split (c : Char) (t : Text) (h : c ∈ t) : ∃ a b, t = a ++ c :: b ∧ c ∉ a := by
  induction t with
  | nil => simp at h
  | cons x t ih =>
    by_cases hx : c = x
    · exact ⟨[], t, by rw [hx]; rfl, by simp⟩
    · obtain ⟨a, b, h1, h2⟩ := ih (by rcases List.mem_cons.1 h with h | h; exact absurd h hx; exact h)
      exact ⟨x :: a, b, by rw [h1]; rfl, by simp [hx, h2]⟩

/-- **C54.** The namespace IRI and the rest concatenate back to the IRI, for every table of namespaces, exactly if some bound namespace fits or the IRI contains a hash
or a slash. -/
theorem namespace_concatenates (R : Reg) (iri : Text) : (R.resolve iri).2 ++ iri.drop (R.resolve iri).2.length = iri ↔ Resolvable R iri := by
  by_cases h : ∃ b ∈ R.binds, Fits b iri
  · obtain ⟨⟨_, r, hr⟩, _⟩ := bound_namespace_used R iri h
    refine ⟨fun _ => Or.inl h, fun _ => ?_⟩
    generalize (R.resolve iri).2 = p at *
    subst hr
    rw [List.drop_left]
  · have h' : ∀ b ∈ R.binds, ¬ Fits b iri := fun b hb hf => h ⟨b, hb, hf⟩
    by_cases hh : '#' ∈ iri
    · refine ⟨fun _ => Or.inr (Or.inl hh), fun _ => ?_⟩
      obtain ⟨a, b, e, ha⟩ := first_split _ _ hh
      subst e
      rw [unbound_split_at_hash R a b ha h']
      rw [show a ++ '#' :: b = (a ++ ['#']) ++ b by simp, List.drop_left]
    · by_cases hs : '/' ∈ iri
      · refine ⟨fun _ => Or.inr (Or.inr hs), fun _ => ?_⟩
        obtain ⟨a, b, e, hb⟩ := last_split _ _ hs
        subst e
        rw [unbound_split_at_slash R a b hb hh h']
        rw [show a ++ '/' :: b = (a ++ ['/']) ++ b by simp, List.drop_left]
      · refine ⟨fun e => ?_, fun hk => ?_⟩
        · rw [resolve_unbound R iri h', if_neg hh, splitOn_none _ _ hs] at e
          exfalso
          apply hs
          rw [← e]
          simp
        · rcases hk with hk | hk | hk
          · exact absurd hk h
          · exact absurd hk hh
          · exact absurd hk hs

/-- Non-vacuity, in both directions: a table with a namespace; an IRI with a colon only. -/
example : Resolvable ⟨[("city".toList, "http://city#".toList)], [], [], [], []⟩ "http://city#Street".toList ∧ ¬ Resolvable ⟨[("city".toList, "http://city#".toList)], [], [], [], []⟩ "urn:a:b".toList := by
  constructor
  · exact Or.inr (Or.inl (by decide))
  · rintro (⟨b, hb, hf⟩ | h | h)
    · simp only [List.mem_cons, List.not_mem_nil, or_false] at hb
      subst hb
      obtain ⟨_, r, hr⟩ := hf
      simp at hr
    · exact absurd h (by decide)
    · exact absurd h (by decide)

/-- **Finding.** The entity of an IRI without hash and slash has another IRI. -/
theorem urn_entity_has_other_iri : let R : Reg := ⟨[], [], [("urn:a:b".toList, some .class_)], [], []⟩
    (R.fromIri all "urn:a:b".toList none).map (·.iri) = .ok "/rn:a:b".toList := by decide

theorem findType {types : List (Text × Option Kind)} {allow : Kind → Bool} {iri : Text} :
    match types.findSome? (fun t => if t.1 = iri then t.2.filter allow else none) with
    | some k => (iri, some k) ∈ types ∧ allow k = true
    | none => ∀ k, (iri, some k) ∈ types → allow k = false := by
  induction types with
  | nil => simp
  | cons t ts ih =>
    obtain ⟨i, o⟩ := t
    rw [List.findSome?_cons]
    by_cases hi : i = iri
    · subst hi
      simp only [if_true]
      cases o with
      | none =>
        simp only [Option.filter_none]
        split at ih <;> rename_i hx <;> rw [hx]
        · exact ⟨List.mem_cons_of_mem _ ih.1, ih.2⟩
        · intro k hk
          simp only [List.mem_cons, Prod.mk.injEq, reduceCtorEq, and_false, false_or] at hk
          exact ih k hk
      | some k =>
        by_cases hk : allow k = true
        · simp [Option.filter, hk]
        · have hf : (some k).filter allow = none := by simp [Option.filter, hk]
          simp only [hf]
          split at ih <;> rename_i hx <;> rw [hx]
          · exact ⟨List.mem_cons_of_mem _ ih.1, ih.2⟩
          · intro k' hk'
            simp only [List.mem_cons, Prod.mk.injEq, Option.some.injEq, true_and] at hk'
            rcases hk' with rfl | hk'
            · simpa using hk
            · exact ih k' hk'
    · simp only [hi, if_false]
      split at ih <;> rename_i hx <;> rw [hx]
      · exact ⟨List.mem_cons_of_mem _ ih.1, ih.2⟩
      · intro k hk
        simp only [List.mem_cons, Prod.mk.injEq] at hk
        rcases hk with hk | hk
        · exact absurd hk.1.symm hi
        · exact ih k hk

/-- **C54.** `from_iri` with a given name: an entity with exactly this IRI, this name and one of the allowed types it has in the graph; KeyError exactly if it has none of
them. -/
theorem from_iri_exact (R : Reg) (allow : Kind → Bool) (iri n : Text) (h : Resolvable R iri) :
    (∃ e, R.fromIri allow iri (some n) = .ok e ∧ e.iri = iri ∧ e.name = n ∧ (iri, some e.kind) ∈ R.types ∧ allow e.kind = true) ∨
    (R.fromIri allow iri (some n) = .error .keyError ∧ ∀ k, (iri, some k) ∈ R.types → allow k = false) := by
  have hk := findType (types := R.types) (allow := allow) (iri := iri)
  unfold Reg.fromIri Reg.nameOr
  dsimp only
  split at hk <;> rename_i hx <;> rw [hx]
  · exact Or.inl ⟨_, rfl, (namespace_concatenates R iri).2 h, rfl, hk.1, hk.2⟩
  · exact Or.inr ⟨rfl, hk⟩

/-- Without a given name, in a namespace that refers by suffix: the same, and the name is the rest of the IRI. -/
theorem from_iri_named_by_suffix (R : Reg) (allow : Kind → Bool) (iri : Text) (hl : (R.resolve iri).2 ∉ R.byLabel) :
    R.fromIri allow iri none = R.fromIri allow iri (some (iri.drop (R.resolve iri).2.length)) := by
  unfold Reg.fromIri Reg.nameOr Reg.entityName
  dsimp only
  rw [if_neg hl]

/-- In a namespace that refers by label: if the entity has a label, it is its name (one of its labels). -/
theorem from_iri_named_by_label (R : Reg) (allow : Kind → Bool) (iri : Text) (hl : (R.resolve iri).2 ∈ R.byLabel) (h : ∃ l ∈ R.labels, l.1 = iri) :
    ∃ l ∈ R.labels, l.1 = iri ∧ R.fromIri allow iri none = R.fromIri allow iri (some l.2.1) := by
  obtain ⟨l, hm, rfl⟩ := h
  unfold Reg.fromIri Reg.nameOr Reg.entityName
  dsimp only
  rw [if_pos hl]
  cases hx : R.labels.find? (fun x => x.1 = l.1) with
  | none =>
    rw [List.find?_eq_none] at hx
    exact absurd (decide_eq_true rfl) (hx l hm)
  | some x =>
    have h1 := List.mem_of_find?_eq_some hx
    have h2 := List.find?_some hx
    exact ⟨x, h1, by simpa using h2, rfl⟩

/-- **Finding.** If it has none, `AttributeError`, also with `raise_error=False` or if the IRI is unknown. -/
theorem from_iri_without_label_raises (R : Reg) (allow : Kind → Bool) (iri : Text) (hl : (R.resolve iri).2 ∈ R.byLabel) (h : ∀ l ∈ R.labels, l.1 ≠ iri) :
    R.fromIri allow iri none = .error .attributeError := by
  unfold Reg.fromIri Reg.nameOr Reg.entityName
  dsimp only
  rw [if_pos hl, List.find?_eq_none.2 (fun l hm => by simpa using h l hm)]

/-- If the graph gives an entity only one of the three types, the result does not depend on the order in which the graph is enumerated. -/
theorem from_iri_order_independent (R : Reg) (types : List (Text × Option Kind)) (hp : types.Perm R.types) (iri : Text) (n : Option Text)
    (h1 : ∀ k k', (iri, some k) ∈ R.types → (iri, some k') ∈ R.types → k = k') :
    ({ R with types := types } : Reg).fromIri all iri n = R.fromIri all iri n := by
  have ha := findType (types := R.types) (allow := all) (iri := iri)
  have hb := findType (types := types) (allow := all) (iri := iri)
  have he : types.findSome? (fun t => if t.1 = iri then t.2.filter all else none) = R.types.findSome? (fun t => if t.1 = iri then t.2.filter all else none) := by
    cases hx : R.types.findSome? (fun t => if t.1 = iri then t.2.filter all else none) with
    | none =>
      rw [hx] at ha
      cases hy : types.findSome? (fun t => if t.1 = iri then t.2.filter all else none) with
      | none => rfl
      | some k =>
        rw [hy] at hb
        exact absurd (ha k (hp.mem_iff.1 hb.1)) (by simp [all])
    | some k =>
      rw [hx] at ha
      cases hy : types.findSome? (fun t => if t.1 = iri then t.2.filter all else none) with
      | none =>
        rw [hy] at hb
        exact absurd (hb k (hp.mem_iff.2 ha.1)) (by simp [all])
      | some k' =>
        rw [hy] at hb
        rw [h1 k k' ha.1 (hp.mem_iff.1 hb.1)]
  unfold Reg.fromIri
  have : ({ R with types := types } : Reg).resolve iri = R.resolve iri := rfl
  have h2 : ∀ ns, ({ R with types := types } : Reg).nameOr iri ns n = R.nameOr iri ns n := by
    intro ns; cases n <;> rfl
  dsimp only
  rw [this, h2, he]

/-- An entity with two types: which one is returned depends on the order of the graph. -/
theorem two_types_depend_on_order :
    let t : List (Text × Option Kind) := [("http://a#b".toList, some .class_), ("http://a#b".toList, some .relationship)]
    (Reg.fromIri ⟨[], [], t, [], []⟩ all "http://a#b".toList none).map (·.kind) = .ok .class_ ∧
    (Reg.fromIri ⟨[], [], t.reverse, [], []⟩ all "http://a#b".toList none).map (·.kind) = .ok .relationship := by decide

/-! ### the namespace of an entity -/

theorem resolve_resolve (R : Reg) (iri : Text) (h : Resolvable R iri) : R.resolve (R.resolve iri).2 = R.resolve iri := by
  by_cases hb : ∃ b ∈ R.binds, Fits b iri
  · obtain ⟨⟨hn, r, hr⟩, l, q, hl, hf⟩ := bound_namespace_used R iri hb
    have hm : R.resolve iri ∈ R.binds := by rw [hl]; simp
    have hself : Fits (R.resolve iri) (R.resolve iri).2 := ⟨hn, [], by simp⟩
    obtain ⟨_, l', q', hl', hf'⟩ := bound_namespace_used R (R.resolve iri).2 ⟨_, hm, hself⟩
    -- both are the first fitting binding
    have hno : ∀ b ∈ l, ¬ Fits b (R.resolve iri).2 := by
      rintro b hbl ⟨h1, r1, h2⟩
      exact hf b hbl ⟨h1, r1 ++ r, by rw [hr]; rw [← List.append_assoc, ← h2]⟩
    unfold Reg.resolve at hno hself ⊢
    have hx : R.binds.find? (fun b => b.2.isPrefixOf iri && !b.1.isEmpty) = some (R.resolve iri) := by
      rw [List.find?_eq_some_iff_append]
      exact ⟨(fits_iff _ _).2 ⟨hn, r, hr⟩, l, q, hl, fun b hbl => by
        rw [not_fits (hf b hbl)]; rfl⟩
    rw [hx] at hno hself ⊢
    dsimp only at hno hself ⊢
    have hy : R.binds.find? (fun b => b.2.isPrefixOf (R.resolve iri).2 && !b.1.isEmpty) = some (R.resolve iri) := by
      rw [List.find?_eq_some_iff_append]
      exact ⟨(fits_iff _ _).2 hself, l, q, hl, fun b hbl => by
        rw [not_fits (hno b hbl)]; rfl⟩
    rw [hy]
  · have h' : ∀ b ∈ R.binds, ¬ Fits b iri := fun b hm hf => hb ⟨b, hm, hf⟩
    have hpre : ∀ p s, iri = p ++ s → ∀ b ∈ R.binds, ¬ Fits b p := by
      rintro p s e b hm ⟨h1, r, h2⟩
      exact h' b hm ⟨h1, r ++ s, by rw [e, h2, List.append_assoc]⟩
    by_cases hh : '#' ∈ iri
    · obtain ⟨a, b, e, ha⟩ := first_split _ _ hh
      have h2 := hpre (a ++ '#' :: []) b (by rw [e]; simp)
      subst e
      rw [unbound_split_at_hash R a b ha h', unbound_split_at_hash R a [] ha h2]
    · have hs : '/' ∈ iri := by
        rcases h with h | h | h
        · exact absurd h hb
        · exact absurd h hh
        · exact h
      obtain ⟨a, b, e, hb'⟩ := last_split _ _ hs
      have h2 := hpre (a ++ '/' :: []) b (by rw [e]; simp)
      subst e
      have hh2 : '#' ∉ a ++ '/' :: [] := by
        intro k
        apply hh
        simp only [List.mem_append, List.mem_cons, List.not_mem_nil, or_false] at k ⊢
        rcases k with k | k
        · exact Or.inl k
        · exact Or.inr (Or.inl k)
      rw [unbound_split_at_slash R a b hb' hh h', unbound_split_at_slash R a [] (by simp) hh2 h2]

/-- The keys of the table are up to date and every key is the lower case name of exactly one namespace, which is written in lower case,
without hash and slash. -/
structure Current (R : Reg) : Prop where
  updated : R.update = R
  unique : ∀ b ∈ R.binds, ∀ b' ∈ R.binds, lower b.1 = lower b'.1 → b = b'
  lowercase : ∀ b ∈ R.binds, lower b.1 = b.1
  simple : ∀ b ∈ R.binds, '#' ∉ b.1 ∧ '/' ∉ b.1

theorem find_update {R : Reg} (h : R.update = R) (n : Text) : (R.find n).isSome ↔ ∃ b ∈ R.binds, lower b.1 = n := by
  unfold Reg.find
  rw [← h]
  unfold Reg.update
  dsimp only
  rw [Option.isSome_map, List.find?_isSome]
  simp only [List.mem_reverse, List.mem_map, decide_eq_true_eq]
  constructor
  · rintro ⟨x, ⟨b, hb, rfl⟩, hx⟩
    exact ⟨b, hb, hx⟩
  · rintro ⟨b, hb, hx⟩
    exact ⟨_, ⟨b, hb, rfl⟩, hx⟩

theorem find_current {R : Reg} (h : Current R) {b : Text × Text} (hb : b ∈ R.binds) : R.find b.1 = some b.2 := by
  have hs := (find_update h.updated b.1).2 ⟨b, hb, h.lowercase b hb⟩
  obtain ⟨v, hv⟩ := Option.isSome_iff_exists.1 hs
  rw [hv]
  unfold Reg.find at hv
  rw [Option.map_eq_some_iff] at hv
  obtain ⟨x, hx, rfl⟩ := hv
  have h1 := List.mem_of_find?_eq_some hx
  have h2 := List.find?_some hx
  rw [← h.updated] at h1
  unfold Reg.update at h1
  simp only [List.mem_reverse, List.mem_map] at h1
  obtain ⟨c, hc, rfl⟩ := h1
  have h3 : lower c.1 = b.1 := by simpa using h2
  have := h.unique c hc b hb (by rw [h3, h.lowercase b hb])
  rw [this]

/-- **C54.** The namespace of an entity: if the names of the bound namespaces are unambiguous and in lower case, `entity.namespace` is the namespace from which the IRI of
the entity was resolved, and it is the same object as the one found by name in the registry. -/
theorem entity_namespace_partial (R : Reg) (h : Current R) (iri : Text) (hr : Resolvable R iri) (allow : Kind → Bool) (n : Option Text) (e : Entity)
    (he : R.fromIri allow iri n = .ok e) :
    ∃ N, R.entityNs e = .ok N ∧ N.iri = e.nsIri ∧ N.name = R.nsName e ∧ ((∃ b ∈ R.binds, Fits b iri) → R.get (R.nsName e) = .ok N) := by
  have hns : e.nsIri = (R.resolve iri).2 ∧ e.iri = iri := by
    unfold Reg.fromIri at he
    dsimp only at he
    split at he
    · exact absurd he (by simp)
    · split at he
      · obtain rfl := Except.ok.inj he
        exact ⟨rfl, (namespace_concatenates R iri).2 hr⟩
      · exact absurd he (by simp)
  have hnm : R.nsName e = (R.resolve iri).1 := by unfold Reg.nsName; rw [hns.2]
  unfold Reg.entityNs Reg.nsFromIri
  rw [hns.1, resolve_resolve R iri hr, hnm]
  dsimp only
  have key : ∀ b ∈ R.binds, R.get b.1 = .ok (R.mkNs b.1 b.2) := by
    intro b hb
    unfold Reg.get
    rw [h.lowercase b hb, find_current h hb]
  split
  · rename_i hs
    obtain ⟨b, hb, hlb⟩ := (find_update h.updated _).1 hs
    rw [h.lowercase b hb] at hlb
    by_cases hf : ∃ b ∈ R.binds, Fits b iri
    · obtain ⟨_, l, q, hl, _⟩ := bound_namespace_used R iri hf
      have hm : R.resolve iri ∈ R.binds := by rw [hl]; simp
      refine ⟨_, key _ hm, rfl, rfl, fun _ => key _ hm⟩
    · -- an unbound namespace IRI that is the name of a bound namespace
      have h' : ∀ b ∈ R.binds, ¬ Fits b iri := fun b hm hf' => hf ⟨b, hm, hf'⟩
      have hend : ∃ c p, (c = '#' ∨ c = '/') ∧ (R.resolve iri).1 = p ++ [c] := by
        rw [resolve_unbound R iri h']
        by_cases hh : '#' ∈ iri
        · rw [if_pos hh]; exact ⟨_, _, Or.inl rfl, rfl⟩
        · rw [if_neg hh]; exact ⟨_, _, Or.inr rfl, rfl⟩
      obtain ⟨c, p, hc, hp⟩ := hend
      have hsm := h.simple b hb
      rw [hlb, hp] at hsm
      rcases hc with rfl | rfl
      · exact absurd (by simp) hsm.1
      · exact absurd (by simp) hsm.2
  · rename_i hs
    refine ⟨_, rfl, rfl, rfl, fun hf => ?_⟩
    obtain ⟨_, l, q, hl, _⟩ := bound_namespace_used R iri hf
    have hm : R.resolve iri ∈ R.binds := by rw [hl]; simp
    exact absurd (by rw [find_current h hm]; rfl) hs

/-- A registry with the cuba and city namespaces. -/
def R0 : Reg := Reg.update ⟨[([], "http://default#".toList), ("cuba".toList, "http://www.osp-core.com/cuba#".toList), ("city".toList, "http://www.osp-core.com/city#".toList)], [],
  [("http://www.osp-core.com/city#City".toList, none), ("http://www.osp-core.com/city#City".toList, some .class_), ("http://www.osp-core.com/city#HAS_PART".toList, some .relationship),
   ("http://www.osp-core.com/city#name".toList, some .attribute), ("http://www.osp-core.com/cuba#Entity".toList, some .class_)], [], []⟩

theorem current0 : Current R0 := by
  refine ⟨rfl, ?_, ?_, ?_⟩ <;> decide

/-- The hypotheses of `entity_namespace_partial` hold. -/
example : ∃ e N, R0.fromIri all "http://www.osp-core.com/city#City".toList none = .ok e ∧ R0.entityNs e = .ok N ∧ N.name = "city".toList ∧ e.name = "City".toList := by
  have h : R0.fromIri all "http://www.osp-core.com/city#City".toList none = .ok ⟨.class_, "http://www.osp-core.com/city#".toList, "City".toList, "City".toList⟩ := by decide +kernel
  obtain ⟨N, h1, h2, h3, _⟩ := entity_namespace_partial R0 current0 _ (Or.inr (Or.inl (by decide))) all none _ h
  exact ⟨_, N, h, h1, by rw [h3]; decide +kernel, rfl⟩

/-- **Finding.** A namespace bound with capital letters (from the `namespaces` of an OWL ontology file): the registry's table has the key in lower case, so that the namespace of
its entities is another object (with another name, therefore unequal) than the one found in the registry. -/
theorem capital_namespace_two_objects :
    let R := Reg.update ⟨[("CITY".toList, "http://city#".toList)], [], [("http://city#City".toList, some .class_)], [], []⟩
    ∃ e N, R.fromIri all "http://city#City".toList none = .ok e ∧ R.entityNs e = .ok ⟨"CITY".toList, "http://city#".toList, false⟩ ∧ R.get "CITY".toList = .ok N ∧
      N = ⟨"city".toList, "http://city#".toList, false⟩ :=
  ⟨⟨.class_, "http://city#".toList, "City".toList, "City".toList⟩, _, by decide +kernel, by decide +kernel, by decide +kernel, rfl⟩

/-- **Finding.** Not the longest but the first fitting namespace is used: if one namespace IRI is a prefix of another, the entities of the longer one can be attributed to the
shorter one, depending on the order in which they were bound. -/
theorem shorter_namespace_used :
    let bs := [("a".toList, "http://x/".toList), ("b".toList, "http://x/y#".toList)]
    let ts : List (Text × Option Kind) := [("http://x/y#C".toList, some .class_)]
    (Reg.fromIri ⟨bs, [], ts, [], []⟩ all "http://x/y#C".toList none).map (fun e => (e.name, Reg.nsName ⟨bs, [], ts, [], []⟩ e)) = .ok ("y#C".toList, "a".toList) ∧
    (Reg.fromIri ⟨bs.reverse, [], ts, [], []⟩ all "http://x/y#C".toList none).map (fun e => (e.name, Reg.nsName ⟨bs.reverse, [], ts, [], []⟩ e)) = .ok ("C".toList, "b".toList) := by
  decide +kernel

end Osp.Names
