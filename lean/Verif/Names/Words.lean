import Verif.Names.Lookup
/-!
# What the alternative spelling is (C53), lookup by label, and lookup by full name
-/
namespace Osp.Names

variable {R : Reg} {N : Ns} {inverse : Entity → Except PyErr Entity}

/-- A word of a camel case name: a first letter, then no capital letters. -/
def Tail (w : Text) : Prop := ∀ c ∈ w, c.isUpper = false

/-- The words of a name in upper case, joined by underscores. -/
def snake (ws : List Text) : Text := joinWith ['_'] (ws.map upper)

theorem snakeTail_append (a b : Text) : snakeTail (a ++ b) = snakeTail a ++ snakeTail b := by
  induction a with
  | nil => rfl
  | cons c a ih =>
    show (if c.isUpper then ['_', c] else [c]) ++ snakeTail (a ++ b) = (if c.isUpper then ['_', c] else [c]) ++ snakeTail a ++ snakeTail b
    rw [ih, List.append_assoc]

theorem snakeTail_tail {w : Text} (h : Tail w) : snakeTail w = w := by
  induction w with
  | nil => rfl
  | cons c w ih =>
    show (if c.isUpper then ['_', c] else [c]) ++ snakeTail w = c :: w
    rw [h c (List.mem_cons_self ..), ih (fun x hx => h x (List.mem_cons_of_mem _ hx))]
    rfl

theorem upper_append (a b : Text) : upper (a ++ b) = upper a ++ upper b := List.map_append

theorem toUpper_idem (c : Char) : c.toUpper.toUpper = c.toUpper := by
  by_cases h : c.isLower = true
  · have : ∀ n, n < 123 → 97 ≤ n → (Char.ofNat n).toUpper.toUpper = (Char.ofNat n).toUpper := by decide
    unfold Char.isLower at h
    simp only [ge_iff_le, Bool.and_eq_true, decide_eq_true_eq] at h
    have h1 : 97 ≤ c.toNat := h.1
    have h2 : c.toNat ≤ 122 := h.2
    have := this c.toNat (by omega) h1
    rwa [Char.ofNat_toNat] at this
  · have : c.toUpper = c := by
      unfold Char.toUpper
      unfold Char.isLower at h
      simp only [ge_iff_le, Bool.and_eq_true, decide_eq_true_eq] at h
      split
      · rename_i hk; exact absurd hk h
      · rfl
    rw [this, this]

theorem upper_idem (t : Text) : upper (upper t) = upper t := by
  unfold upper
  rw [List.map_map]
  exact List.map_congr_left (fun c _ => toUpper_idem c)

/-- A capital letter followed by a tail. -/
def Word (w : Text) : Prop := ∃ c t, w = c :: t ∧ c.isUpper = true ∧ Tail t

theorem snakeTail_words (ws : List Text) (h : ∀ w ∈ ws, Word w) : upper (snakeTail ws.flatten) = (ws.map (fun w => '_' :: upper w)).flatten := by
  induction ws with
  | nil => rfl
  | cons w ws ih =>
    obtain ⟨c, t, rfl, hc, ht⟩ := h w (List.mem_cons_self ..)
    rw [List.flatten_cons, snakeTail_append, upper_append, ih (fun x hx => h x (List.mem_cons_of_mem _ hx)), List.map_cons, List.flatten_cons]
    congr 1
    show upper ((if c.isUpper then ['_', c] else [c]) ++ snakeTail t) = _
    rw [hc, snakeTail_tail ht]
    rfl

theorem joinWith_cons (x : Text) (xs : List Text) : joinWith ['_'] (x :: xs) = x ++ (xs.map (fun w => '_' :: w)).flatten := by
  induction xs generalizing x with
  | nil => simp [joinWith]
  | cons y ys ih =>
    rw [joinWith, ih y, List.map_cons, List.flatten_cons]
    simp

/-- **C53.** Outside of cuba the alternative of a name in camel case (`HasPart` or `hasPart`) is the name in upper case with underscores (`HAS_PART`): for all lists of
words, the first of which may begin with any letter. -/
theorem camel_to_upper_snake (c : Char) (t : Text) (ws : List Text) (ht : Tail t) (hw : ∀ w ∈ ws, Word w) (hl : ((c :: t) :: ws).flatten.any Char.isLower = true)
    (hu : ((c :: t) :: ws).flatten.any Char.isUpper = true) : alt false ((c :: t) :: ws).flatten = .ok (some (snake ((c :: t) :: ws))) := by
  show alt false (c :: (t ++ ws.flatten)) = _
  rw [alt_plain, if_pos ⟨hl, hu⟩]
  congr 2
  unfold snake
  rw [List.map_cons, joinWith_cons, snakeTail_append, snakeTail_tail ht]
  show c.toUpper.toUpper :: upper (t ++ snakeTail ws.flatten) = _
  rw [toUpper_idem, upper_append, snakeTail_words ws hw, List.map_map]
  rfl

example : alt false "hasPart2Of".toList = .ok (some "HAS_PART2_OF".toList) :=
  camel_to_upper_snake 'h' "as".toList ["Part2".toList, "Of".toList] (by unfold Tail; decide)
    (by
      intro w hw
      simp only [List.mem_cons, List.not_mem_nil, or_false] at hw
      rcases hw with rfl | rfl
      · exact ⟨'P', "art2".toList, rfl, by decide, by unfold Tail; decide⟩
      · exact ⟨'O', "f".toList, rfl, by decide, by unfold Tail; decide⟩)
    (by decide) (by decide)

/-- **C53.** The alternative of any other non-empty name is the name in upper case. -/
theorem other_to_upper (n : Text) (hn : n ≠ []) (h : n.any Char.isLower = false ∨ n.any Char.isUpper = false) : alt false n = .ok (some (upper n)) := by
  cases n with
  | nil => exact absurd rfl hn
  | cons c t =>
    rw [alt_plain, if_neg]
    rintro ⟨h1, h2⟩
    rcases h with h | h
    · rw [h1] at h; exact absurd h (by decide)
    · rw [h2] at h; exact absurd h (by decide)

example : alt false "city".toList = .ok (some "CITY".toList) := other_to_upper _ (by decide) (Or.inr (by decide))

/-- First letter in upper case, the rest in lower case. -/
def capital : Text → Text
  | [] => []
  | c :: t => c.toUpper :: lower t

theorem camelTail_none (b : Bool) (t : Text) (h : '_' ∉ t) : camelTail b t = match b, t with
    | true, c :: t => c.toUpper :: lower t
    | _, t => lower t := by
  induction t generalizing b with
  | nil => cases b <;> rfl
  | cons c t ih =>
    have hc : c ≠ '_' := fun k => h (by rw [k]; exact List.mem_cons_self ..)
    have ht : '_' ∉ t := fun k => h (List.mem_cons_of_mem _ k)
    unfold camelTail
    rw [if_neg hc, ih false ht]
    cases b <;> rfl

theorem camelTail_words (b : Bool) (t : Text) (ws : List Text) (h : '_' ∉ t) (hw : ∀ w ∈ ws, '_' ∉ w) (hne : ∀ w ∈ ws, w ≠ []) :
    camelTail b (t ++ (ws.map (fun w => '_' :: w)).flatten) = camelTail b t ++ (ws.map capital).flatten := by
  induction t generalizing b with
  | nil =>
    induction ws generalizing b with
    | nil => cases b <;> rfl
    | cons w ws ih =>
      obtain ⟨c, t, rfl⟩ : ∃ c t, w = c :: t := by
        cases w with
        | nil => exact absurd rfl (hne _ (List.mem_cons_self ..))
        | cons c t => exact ⟨c, t, rfl⟩
      have hw1 := hw _ (List.mem_cons_self ..)
      have hc : c ≠ '_' := fun k => hw1 (by rw [k]; exact List.mem_cons_self ..)
      have ht : '_' ∉ t := fun k => hw1 (List.mem_cons_of_mem _ k)
      show camelTail b ('_' :: c :: (t ++ (ws.map (fun w => '_' :: w)).flatten)) = [] ++ (c.toUpper :: lower t ++ (ws.map capital).flatten)
      unfold camelTail
      rw [if_pos rfl]
      unfold camelTail
      rw [if_neg hc]
      -- the rest of the word, then the other words
      have key : ∀ (b : Bool) (t : Text), '_' ∉ t → camelTail b (t ++ (ws.map (fun w => '_' :: w)).flatten) = camelTail b t ++ (ws.map capital).flatten := by
        intro b t ht
        induction t generalizing b with
        | nil =>
          have := ih (fun x hx => hw x (List.mem_cons_of_mem _ hx)) (fun x hx => hne x (List.mem_cons_of_mem _ hx)) b
          exact this
        | cons x t iht =>
          have hx : x ≠ '_' := fun k => ht (by rw [k]; exact List.mem_cons_self ..)
          have ht' : '_' ∉ t := fun k => ht (List.mem_cons_of_mem _ k)
          show camelTail b (x :: (t ++ _)) = camelTail b (x :: t) ++ _
          unfold camelTail
          rw [if_neg hx, if_neg hx, iht false ht']
          rfl
      rw [key false t ht, camelTail_none false t ht]
      rfl
  | cons c t ih =>
    have hc : c ≠ '_' := fun k => h (by rw [k]; exact List.mem_cons_self ..)
    have ht : '_' ∉ t := fun k => h (List.mem_cons_of_mem _ k)
    show camelTail b (c :: (t ++ _)) = camelTail b (c :: t) ++ _
    unfold camelTail
    rw [if_neg hc, if_neg hc, ih false ht]
    rfl

/-- The first letter in lower case. -/
def decap : Text → Text
  | [] => []
  | c :: t => c.toLower :: t

/-- **C53.** In the cuba namespace the alternative of a name with underscores (`ACTIVE_RELATIONSHIP`) is the name in camel case, with a first capital letter if cuba has such an entity,
else with a first small letter, else there is none. -/
theorem snake_to_camel (w : Text) (ws : List Text) (hne : ∀ x ∈ w :: ws, x ≠ []) (hu : ∀ x ∈ w :: ws, '_' ∉ x) (hs : ws ≠ []) :
    alt true (joinWith ['_'] (w :: ws)) = .ok (if inCuba ((w :: ws).map capital).flatten then some ((w :: ws).map capital).flatten
      else if inCuba (decap ((w :: ws).map capital).flatten) then some (decap ((w :: ws).map capital).flatten) else none) := by
  obtain ⟨c, t, rfl⟩ : ∃ c t, w = c :: t := by
    cases w with
    | nil => exact absurd rfl (hne _ (List.mem_cons_self ..))
    | cons c t => exact ⟨c, t, rfl⟩
  have ht : '_' ∉ t := fun k => hu _ (List.mem_cons_self ..) (List.mem_cons_of_mem _ k)
  rw [joinWith_cons]
  show alt true (c :: (t ++ (ws.map (fun w => '_' :: w)).flatten)) = _
  have hmem : '_' ∈ t ++ (ws.map (fun w => '_' :: w)).flatten := by
    cases ws with
    | nil => exact absurd rfl hs
    | cons x xs => simp
  have hct := camelTail_words false t ws ht (fun x hx => hu x (List.mem_cons_of_mem _ hx)) (fun x hx => hne x (List.mem_cons_of_mem _ hx))
  rw [camelTail_none false t ht] at hct
  have hfl : ((c :: t) :: ws).map capital = (c.toUpper :: lower t) :: ws.map capital := rfl
  unfold alt
  simp only [Bool.not_true, Bool.false_and, Bool.false_eq_true, if_false, hmem, true_or, if_true, hct, hfl, List.flatten_cons, List.cons_append, decap]
  split
  · rfl
  · split <;> rfl

example : alt true "ACTIVE_RELATIONSHIP".toList = .ok (some "activeRelationship".toList) := by
  have := snake_to_camel "ACTIVE".toList ["RELATIONSHIP".toList] (by decide) (by decide) (by decide)
  exact this.trans (by decide +kernel)

/-- Every entity of cuba is found by its name of the old convention (in upper case, with underscores between the words). -/
theorem cuba_old_names : ∀ p ∈ [("ACTIVE_RELATIONSHIP", "activeRelationship"), ("ENTITY", "Entity"), ("FILE", "File"), ("NOTHING", "Nothing"), ("PASSIVE_RELATIONSHIP", "passiveRelationship"),
    ("PATH", "path"), ("WRAPPER", "Wrapper"), ("ATTRIBUTE", "attribute"), ("RELATIONSHIP", "relationship"), ("CLASS", "Class")],
    p.2.toList ∈ cubaEntities ∧ alt true p.1.toList = .ok (some p.2.toList) := by decide +kernel

/-- INVERSE_OF_x with another spelling of x: the inverse of the relationship found for x. -/
theorem inverse_of_alternative (hN : Bound R N) (hl : N.byLabel = false) (hc : N.name ≠ "cuba".toList) {x a : Text} (h : ¬ Has R N (invPrefix ++ x))
    (ha : ∀ a, alt false (invPrefix ++ x) = .ok (some a) → ¬ Has R N a) (hx : ¬ Has R N x) (hax : alt false x = .ok (some a)) (hh : Has R N a) :
    ∃ e, Is R N a e ∧ get R inverse N (invPrefix ++ x) = inverse e := by
  obtain ⟨e, he, hi⟩ := exact_has hN hl hh
  have hcu : decide (N.name = "cuba".toList) = false := by simpa using hc
  have hd : doGet R inverse N x = .ok e := by
    rw [doGet_missing hN hl hx]
    unfold getCI orInverse
    rw [hcu, hax]
    simp only [he]
  refine ⟨e, hi, ?_⟩
  unfold get orInverse
  rw [doGet_missing hN hl h]
  unfold getCI
  rw [hcu]
  rcases alt_inverse x with h1 | ⟨t, h1⟩
  · rw [h1]
    dsimp only
    unfold orInverse
    rw [exact_missing hN hl h, isPrefix_inv, drop_inv, exact_missing hN hl hx, hd]
    rfl
  · rw [h1]
    dsimp only
    unfold orInverse
    rw [exact_missing hN hl (ha _ h1)]
    have : invPrefix.isPrefixOf ('I' :: '_' :: t) = false := rfl
    rw [this]
    dsimp only
    rw [isPrefix_inv, drop_inv, hd]
    rfl

/-! ### namespaces by label -/

/-- The entities of the namespace with this label. -/
def Labelled (R : Reg) (N : Ns) (label lang suffix : Text) : Prop := (N.iri ++ suffix, label, lang) ∈ R.labels

theorem collect_ok {f : Text → Except PyErr Entity} : ∀ (l : List Text), (∀ x ∈ l, ∃ e, f x = .ok e) → ∃ es, collect f l = .ok es ∧ es.length = l.length ∧
    ∀ i (h : i < l.length), ∃ e, es[i]? = some e ∧ f l[i] = .ok e := by
  intro l
  induction l with
  | nil => exact fun _ => ⟨[], rfl, rfl, fun i h => absurd h (by simp)⟩
  | cons x xs ih =>
    intro h
    obtain ⟨e, he⟩ := h x (List.mem_cons_self ..)
    obtain ⟨es, h1, h2, h3⟩ := ih (fun y hy => h y (List.mem_cons_of_mem _ hy))
    refine ⟨e :: es, ?_, by simp [h2], ?_⟩
    · unfold collect
      rw [he, h1]
    · intro i hi
      cases i with
      | zero => exact ⟨e, rfl, he⟩
      | succ i =>
        obtain ⟨e', h4, h5⟩ := h3 i (by simpa using hi)
        exact ⟨e', h4, h5⟩

/-- **C53.** Lookup by label, for all graphs in which everything in the namespace with this label is an entity: exactly the entities of the namespace with this label (in the given
language), `KeyError` if there are none. -/
theorem lookup_by_label (hN : Bound R N) (label lang : Text) (hty : ∀ s, Labelled R N label lang s → Has R N s) (hne : ∀ s, Labelled R N label lang s → s ≠ []) :
    (∃ es, item R N label lang = .ok es ∧ es ≠ [] ∧ (∀ e ∈ es, ∃ s, Labelled R N label lang s ∧ e.iri = N.iri ++ s ∧ (N.iri ++ s, some e.kind) ∈ R.types) ∧
      ∀ s, Labelled R N label lang s → ∃ e ∈ es, e.iri = N.iri ++ s) ∨
    (item R N label lang = .error .keyError ∧ ∀ s, ¬ Labelled R N label lang s) := by
  obtain ⟨l, hl⟩ : ∃ l, l = (R.labels.filter (fun l => decide (l.2 = (label, lang)) && N.iri.isPrefixOf l.1)).map (·.1) := ⟨_, rfl⟩
  have hmem : ∀ x, x ∈ l ↔ ∃ s, x = N.iri ++ s ∧ Labelled R N label lang s := by
    intro x
    rw [hl]
    simp only [List.mem_map, List.mem_filter, Bool.and_eq_true, decide_eq_true_eq, List.isPrefixOf_iff_prefix]
    constructor
    · rintro ⟨⟨a, b⟩, ⟨h1, h2, s, h3⟩, rfl⟩
      dsimp only at h2 h3 ⊢
      subst h2
      exact ⟨s, h3.symm, by unfold Labelled; rw [h3]; exact h1⟩
    · rintro ⟨s, rfl, h⟩
      exact ⟨_, ⟨h, rfl, s, rfl⟩, rfl⟩
  have hf : ∀ s, Labelled R N label lang s → ∃ e, forced R N (if N.byLabel then label else (N.iri ++ s).drop N.iri.length) ((N.iri ++ s).drop N.iri.length) = .ok e ∧
      e.iri = N.iri ++ s ∧ (N.iri ++ s, some e.kind) ∈ R.types := by
    intro s hs
    rw [List.drop_left]
    unfold forced
    rw [if_neg (fun k => hne s hs k.2)]
    rcases from_iri_exact R all (N.iri ++ s) (if N.byLabel then label else s) (hN.resolvable s) with ⟨e, h1, h2, _, h4, _⟩ | ⟨_, h2⟩
    · exact ⟨e, h1, h2, h4⟩
    · obtain ⟨k, hk⟩ := hty s hs
      exact absurd (h2 k hk) (by simp [all])
  obtain ⟨es, h1, h2, h3⟩ := collect_ok (f := fun s => forced R N (if N.byLabel then label else s.drop N.iri.length) (s.drop N.iri.length)) l (by
    intro x hx
    obtain ⟨s, rfl, hs⟩ := (hmem x).1 hx
    obtain ⟨e, he, _⟩ := hf s hs
    exact ⟨e, he⟩)
  unfold item
  rw [← hl, h1]
  cases es with
  | nil =>
    right
    refine ⟨rfl, fun s hs => ?_⟩
    have := (hmem (N.iri ++ s)).2 ⟨s, rfl, hs⟩
    rw [List.eq_nil_of_length_eq_zero h2.symm] at this
    simp at this
  | cons a as =>
    left
    refine ⟨a :: as, rfl, by simp, ?_, ?_⟩
    · intro e he
      obtain ⟨i, hi, hie⟩ := List.mem_iff_getElem.1 he
      obtain ⟨e', h4, h5⟩ := h3 i (by omega)
      obtain ⟨s, hs, hsl⟩ := (hmem l[i]).1 (List.getElem_mem _)
      obtain ⟨e2, h6, h7, h8⟩ := hf s hsl
      have h9 : e' = e := by
        rw [List.getElem?_eq_getElem hi, hie] at h4
        exact (Option.some.inj h4).symm
      rw [h9] at h5
      have h10 : e = e2 := by
        rw [hs] at h5
        exact Except.ok.inj (h5.symm.trans h6)
      exact ⟨s, hsl, by rw [h10]; exact ⟨h7, h8⟩⟩
    · intro s hs
      obtain ⟨i, hi, hie⟩ := List.mem_iff_getElem.1 ((hmem (N.iri ++ s)).2 ⟨s, rfl, hs⟩)
      obtain ⟨e', h4, h5⟩ := h3 i hi
      rw [hie] at h5
      obtain ⟨e2, h6, h7, h8⟩ := hf s hs
      have : e' = e2 := Except.ok.inj (h5.symm.trans h6)
      exact ⟨e', List.mem_of_getElem? h4, by rw [this]; exact h7⟩

/-- **C53.** `namespace.get(name)` in a namespace by label: an entity with this English label; which one, if there are several, depends on the order of the graph. No other
spelling is tried. -/
theorem get_by_label (hN : Bound R N) (hl : N.byLabel = true) (n : Text) (hty : ∀ s, Labelled R N n "en".toList s → Has R N s) (hne : ∀ s, Labelled R N n "en".toList s → s ≠ []) :
    (∃ e s, get R inverse N n = .ok e ∧ Labelled R N n "en".toList s ∧ e.iri = N.iri ++ s) ∨
    ((∀ s, ¬ Labelled R N n "en".toList s) ∧ (invPrefix.isPrefixOf n = false → get R inverse N n = .error .keyError)) := by
  rcases lookup_by_label hN n "en".toList hty hne with ⟨es, h1, h2, h3, _⟩ | ⟨h1, h2⟩
  · cases es with
    | nil => exact absurd rfl h2
    | cons a as =>
      obtain ⟨s, h4, h5, _⟩ := h3 a (List.mem_cons_self ..)
      refine Or.inl ⟨a, s, get_ok ?_, h4, h5⟩
      unfold doGet exact
      rw [hl, h1]
      rfl
  · refine Or.inr ⟨h2, fun hp => get_key ?_ hp⟩
    unfold doGet exact
    rw [hl, h1]
    rfl

/-! ### lookup by full name -/

/-- **C53.** `get_entity(str(entity))` is the entity again, for an entity found by its IRI in a bound namespace that refers by suffix, if namespace names are unambiguous, in lower case
and without dots, and the name of the entity has no dot. -/
theorem full_name_roundtrip_partial (h : Current R) (hd : ∀ b ∈ R.binds, '.' ∉ b.1) (iri : Text) (hb : ∃ b ∈ R.binds, Fits b iri) (hlab : (R.resolve iri).2 ∉ R.byLabel)
    (hdot : '.' ∉ iri.drop (R.resolve iri).2.length)
    (e : Entity) (he : R.fromIri all iri none = .ok e) : getEntity R inverse (R.str e) = .ok e := by
  have hres : Resolvable R iri := Or.inl hb
  obtain ⟨⟨hn, r, hr⟩, l, q, hq, _⟩ := bound_namespace_used R iri hb
  have hm : R.resolve iri ∈ R.binds := by rw [hq]; simp
  rw [from_iri_named_by_suffix R all iri hlab] at he
  obtain ⟨p, hp⟩ : ∃ p, p = R.resolve iri := ⟨_, rfl⟩
  rw [← hp] at hm hn hr hdot he hlab
  have hsuf : iri.drop p.2.length = r := by rw [hr, List.drop_left]
  rw [hsuf] at he hdot
  have heiri : e.iri = iri ∧ e.name = r ∧ (iri, some e.kind) ∈ R.types ∧ e.nsIri = p.2 ∧ e.suffix = r := by
    rcases from_iri_exact R all iri r hres with ⟨e', h1, h2, h3, h4, _⟩ | ⟨h1, _⟩
    · rw [he] at h1
      obtain rfl := Except.ok.inj h1
      refine ⟨h2, h3, h4, ?_⟩
      unfold Reg.fromIri Reg.nameOr at he
      dsimp only at he
      split at he
      · obtain rfl := (Except.ok.inj he).symm
        exact ⟨by rw [hp], by dsimp only; rw [← hp, hsuf]⟩
      · exact absurd he (by simp)
    · rw [he] at h1
      exact absurd h1 (by simp)
  obtain ⟨e1, e2, e3, e4, e5⟩ := heiri
  have hstr : R.str e = p.1 ++ '.' :: r := by
    unfold Reg.str Reg.nsName
    rw [e1, e2, ← hp]
    simp
  rw [hstr]
  unfold getEntity
  rw [splitOn_append _ _ _ (hd p hm), splitOn_none _ _ hdot]
  dsimp only
  have hget : R.get p.1 = .ok (R.mkNs p.1 p.2) := by
    unfold Reg.get
    rw [h.lowercase p hm, find_current h hm]
  rw [hget]
  dsimp only
  have hlb : (R.mkNs p.1 p.2).byLabel = false := by
    unfold Reg.mkNs
    simp [hlab]
  apply get_ok
  have : exact R (R.mkNs p.1 p.2) r = .ok e := by
    unfold exact
    rw [hlb]
    simp only [Bool.false_eq_true, if_false]
    show R.fromIri all (p.2 ++ r) (some r) = _
    rw [← hr]
    exact he
  unfold doGet
  rw [this]

/-! ### examples and findings -/

/-- The city namespace of `R0`. -/
def city : Ns := ⟨"city".toList, "http://www.osp-core.com/city#".toList, false⟩

theorem bound_city : Bound R0 city := ⟨("city".toList, "http://www.osp-core.com/city#".toList), by decide, by decide, rfl⟩

theorem has0 (n : String) : Has R0 city n.toList ↔ n.toList = "City".toList ∨ n.toList = "HAS_PART".toList ∨ n.toList = "name".toList := by
  unfold Has
  constructor
  · rintro ⟨k, hk⟩
    simp only [R0, Reg.update, List.mem_cons, Prod.mk.injEq, List.not_mem_nil, or_false] at hk
    rcases hk with ⟨_, hk⟩ | ⟨hk, _⟩ | ⟨hk, _⟩ | ⟨hk, _⟩ | ⟨hk, _⟩
    · exact absurd hk (by simp)
    · exact Or.inl (List.append_cancel_left (as := city.iri) (hk.trans rfl))
    · exact Or.inr (Or.inl (List.append_cancel_left (as := city.iri) (hk.trans rfl)))
    · exact Or.inr (Or.inr (List.append_cancel_left (as := city.iri) (hk.trans rfl)))
    · exfalso
      have h2 : ("http://www.osp-core.com/ci".toList ++ ("ty#".toList ++ n.toList) : Text) = "http://www.osp-core.com/cu".toList ++ "ba#Entity".toList := hk
      have := congrArg (fun t => t[25]?) h2
      simp at this
  · rintro (h | h | h) <;> rw [h]
    · exact ⟨.class_, by decide⟩
    · exact ⟨.relationship, by decide⟩
    · exact ⟨.attribute, by decide⟩

/-- The hypotheses of the lookup theorems hold: an exact name, another spelling, an inverse, an unknown name. -/
example : (∃ e, get R0 inverse city "City".toList = .ok e ∧ Is R0 city "City".toList e) ∧ (∃ e, get R0 inverse city "hasPart".toList = .ok e ∧ Is R0 city "HAS_PART".toList e) ∧
    (∃ e, Is R0 city "HAS_PART".toList e ∧ get R0 inverse city (invPrefix ++ "hasPart".toList) = inverse e) ∧ get R0 inverse city "street".toList = .error .keyError := by
  have alt1 : alt false "hasPart".toList = .ok (some "HAS_PART".toList) := by decide +kernel
  refine ⟨exact_match_wins bound_city rfl ((has0 _).2 (by decide)), alternative_used bound_city rfl (a := "HAS_PART".toList) (mt (has0 _).1 (by decide)) alt1 ((has0 _).2 (by decide)), ?_, ?_⟩
  · refine inverse_of_alternative bound_city rfl (by decide) (mt (has0 "INVERSE_OF_hasPart").1 (by decide)) ?_ (mt (has0 _).1 (by decide)) alt1 ((has0 _).2 (by decide))
    intro a ha
    have : alt false (invPrefix ++ "hasPart".toList) = .ok (some "I_N_V_E_R_S_E__O_F_HAS_PART".toList) := by decide +kernel
    rw [this] at ha
    obtain rfl := Option.some.inj (Except.ok.inj ha)
    exact mt (has0 "I_N_V_E_R_S_E__O_F_HAS_PART").1 (by decide)
  · refine (unknown_name_raises bound_city rfl (by decide) (mt (has0 "street").1 (by decide)) ?_ (by decide)).1
    intro a ha
    have : alt false "street".toList = .ok (some "STREET".toList) := by decide +kernel
    have hc : decide (city.name = "cuba".toList) = false := by decide
    rw [hc, this] at ha
    obtain rfl := Option.some.inj (Except.ok.inj ha)
    exact ⟨mt (has0 "STREET").1 (by decide), by decide⟩

/-- The hypotheses of `full_name_roundtrip_partial` hold. -/
example : getEntity R0 inverse "city.City".toList = .ok ⟨.class_, "http://www.osp-core.com/city#".toList, "City".toList, "City".toList⟩ := by
  have h := full_name_roundtrip_partial (inverse := inverse) current0 (by decide) "http://www.osp-core.com/city#City".toList
    ⟨("city".toList, "http://www.osp-core.com/city#".toList), by decide, by decide, "City".toList, rfl⟩ (by decide +kernel) (by decide +kernel)
    ⟨.class_, "http://www.osp-core.com/city#".toList, "City".toList, "City".toList⟩ (by decide +kernel)
  have hs : R0.str ⟨.class_, "http://www.osp-core.com/city#".toList, "City".toList, "City".toList⟩ = "city.City".toList := by decide +kernel
  rwa [hs] at h

/-- **Finding.** An unknown name that is empty, or is just INVERSE_OF_, raises `IndexError` instead of `KeyError`, also in `namespace.get` with a fallback. -/
theorem empty_name_index_error (fb : Option Entity) : getOr R0 inverse city [] fb = .error .indexError ∧ getOr R0 inverse city invPrefix fb = .error .indexError := by
  have h1 : exact R0 city [] = .error .keyError := exact_missing bound_city rfl (mt (has0 "").1 (by decide))
  have h2 : ¬ Has R0 city invPrefix := mt (has0 "INVERSE_OF_").1 (by decide)
  have h0 : doGet R0 inverse city [] = .error .indexError := by
    unfold doGet
    rw [h1]
    rfl
  constructor
  · unfold getOr get orInverse
    rw [h0]
  · have h3 : doGet R0 inverse city invPrefix = .error .indexError ∨ doGet R0 inverse city invPrefix = .error .keyError := by
      right
      rw [doGet_missing bound_city rfl h2]
      have ha : alt (decide (city.name = "cuba".toList)) invPrefix = .ok (some invPrefix) := by decide +kernel
      unfold getCI
      rw [ha]
      dsimp only
      unfold orInverse
      rw [exact_missing bound_city rfl h2]
      show (match exact R0 city [] with
        | .error e => .error e
        | .ok e => inverse e : Except PyErr Entity) = _
      rw [h1]
    unfold getOr get orInverse
    rcases h3 with h3 | h3
    · rw [h3]
    · rw [h3]
      show (match (match doGet R0 inverse city [] with
        | .error e => .error e
        | .ok e => inverse e : Except PyErr Entity) with
        | .error .keyError => .ok fb
        | .error e => .error e
        | .ok e => .ok (some e) : Except PyErr (Option Entity)) = _
      rw [h0]

/-- **Finding.** `name in namespace` is never `False`: it is `True` or raises. -/
theorem contains_never_false (n : Text) : contains R inverse N n ≠ .ok false := by
  unfold contains
  split <;> simp

/-- **Finding.** Two entities with the same label: which one a namespace by label returns depends on the order of the graph. -/
theorem ambiguous_label :
    let ns : Ns := ⟨"a".toList, "http://a#".toList, true⟩
    let ts : List (Text × Option Kind) := [("http://a#x1".toList, some .class_), ("http://a#x2".toList, some .class_)]
    let ls := [("http://a#x1".toList, "Atom".toList, "en".toList), ("http://a#x2".toList, "Atom".toList, "en".toList)]
    let R : Reg := ⟨[("a".toList, "http://a#".toList)], [], ts, ls, ["http://a#".toList]⟩
    let R' : Reg := { R with labels := ls.reverse }
    ((get R .ok ns "Atom".toList).map (·.suffix)) = .ok "x1".toList ∧ ((get R' .ok ns "Atom".toList).map (·.suffix)) = .ok "x2".toList := by decide +kernel

/-- **Finding.** Names in a namespace by label are case sensitive, and labels in other languages are not found. -/
theorem label_case_sensitive :
    let ns : Ns := ⟨"a".toList, "http://a#".toList, true⟩
    let R : Reg := ⟨[("a".toList, "http://a#".toList)], [], [("http://a#x1".toList, some .class_)], [("http://a#x1".toList, "ATOM".toList, "en".toList), ("http://a#x1".toList, "ÁTOMO".toList, "es".toList)],
      ["http://a#".toList]⟩
    (get R .ok ns "ATOM".toList).map (·.suffix) = .ok "x1".toList ∧ get R .ok ns "atom".toList = .error .keyError ∧ get R .ok ns "ÁTOMO".toList = .error .keyError := by decide +kernel

end Osp.Names
