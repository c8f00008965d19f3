import Verif.Names.Resolve
/-!
# Entity lookup by name (C53)
-/
namespace Osp.Names

/-- The namespace is bound in the registry under some name. -/
def Bound (R : Reg) (N : Ns) : Prop := ∃ b ∈ R.binds, b.1 ≠ [] ∧ b.2 = N.iri

/-- The graph contains an entity with the IRI of the namespace followed by `n`. -/
def Has (R : Reg) (N : Ns) (n : Text) : Prop := ∃ k, (N.iri ++ n, some k) ∈ R.types

/-- The entity is the one with that IRI, it has this name and one of its types in the graph. -/
def Is (R : Reg) (N : Ns) (n : Text) (e : Entity) : Prop := e.iri = N.iri ++ n ∧ e.name = n ∧ (N.iri ++ n, some e.kind) ∈ R.types

variable {R : Reg} {N : Ns} {inverse : Entity → Except PyErr Entity}

theorem Bound.resolvable (h : Bound R N) (n : Text) : Resolvable R (N.iri ++ n) := by
  obtain ⟨b, hb, h1, h2⟩ := h
  exact Or.inl ⟨b, hb, h1, n, by rw [h2]⟩

theorem exact_cases (hN : Bound R N) (hl : N.byLabel = false) (n : Text) :
    (Has R N n ∧ ∃ e, exact R N n = .ok e ∧ Is R N n e) ∨ (¬ Has R N n ∧ exact R N n = .error .keyError) := by
  unfold exact
  rw [hl]
  simp only [Bool.false_eq_true, if_false]
  rcases from_iri_exact R all (N.iri ++ n) n (hN.resolvable n) with ⟨e, h1, h2, h3, h4, _⟩ | ⟨h1, h2⟩
  · exact Or.inl ⟨⟨_, h4⟩, e, h1, h2, h3, h4⟩
  · refine Or.inr ⟨fun ⟨k, hk⟩ => ?_, h1⟩
    exact absurd (h2 k hk) (by simp [all])

theorem exact_has (hN : Bound R N) (hl : N.byLabel = false) {n : Text} (h : Has R N n) : ∃ e, exact R N n = .ok e ∧ Is R N n e := by
  rcases exact_cases hN hl n with h1 | h1
  · exact h1.2
  · exact absurd h h1.1

theorem exact_missing (hN : Bound R N) (hl : N.byLabel = false) {n : Text} (h : ¬ Has R N n) : exact R N n = .error .keyError := by
  rcases exact_cases hN hl n with h1 | h1
  · exact absurd h1.1 h
  · exact h1.2

theorem get_ok {n : Text} {e : Entity} (h : doGet R inverse N n = .ok e) : get R inverse N n = .ok e := by
  unfold get orInverse
  rw [h]

theorem get_key {n : Text} (h : doGet R inverse N n = .error .keyError) (hp : invPrefix.isPrefixOf n = false) : get R inverse N n = .error .keyError := by
  unfold get orInverse
  rw [h]
  simp [hp]

theorem doGet_missing (hN : Bound R N) (hl : N.byLabel = false) {n : Text} (h : ¬ Has R N n) : doGet R inverse N n = getCI R inverse N n := by
  unfold doGet
  rw [exact_missing hN hl h]
  simp [hl]

/-- **C53.** An exact match is never shadowed: if the namespace contains an entity with that name, it is the one that is returned. -/
theorem exact_match_wins (hN : Bound R N) (hl : N.byLabel = false) {n : Text} (h : Has R N n) : ∃ e, get R inverse N n = .ok e ∧ Is R N n e := by
  obtain ⟨e, he, hi⟩ := exact_has hN hl h
  refine ⟨e, get_ok ?_, hi⟩
  unfold doGet
  rw [he]

/-- **C53.** Otherwise the alternative spelling is looked up. -/
theorem alternative_used (hN : Bound R N) (hl : N.byLabel = false) {n a : Text} (h : ¬ Has R N n) (ha : alt (N.name = "cuba".toList) n = .ok (some a)) (hh : Has R N a) :
    ∃ e, get R inverse N n = .ok e ∧ Is R N a e := by
  obtain ⟨e, he, hi⟩ := exact_has hN hl hh
  refine ⟨e, get_ok ?_, hi⟩
  rw [doGet_missing hN hl h]
  unfold getCI orInverse
  rw [ha]
  simp only [he]

theorem alt_plain (c : Char) (t : Text) : alt false (c :: t) =
    .ok (some (if (c :: t).any Char.isLower = true ∧ (c :: t).any Char.isUpper = true then upper (c.toUpper :: snakeTail t) else upper (c :: t))) := by
  unfold alt
  dsimp only
  generalize (c :: t).any Char.isLower = x
  generalize (c :: t).any Char.isUpper = y
  cases x <;> cases y <;> rfl

theorem alt_total (b : Bool) (c : Char) (t : Text) : ∃ o, alt b (c :: t) = .ok o := by
  cases b with
  | false => exact ⟨_, alt_plain c t⟩
  | true =>
    unfold alt
    simp only [Bool.not_true, Bool.false_and, Bool.false_eq_true, if_false]
    repeat' split
    all_goals exact ⟨_, rfl⟩

theorem getCI_missing (hN : Bound R N) (hl : N.byLabel = false) {n : Text} (hn : n ≠ [])
    (ha : ∀ a, alt (N.name = "cuba".toList) n = .ok (some a) → ¬ Has R N a ∧ invPrefix.isPrefixOf a = false) : getCI R inverse N n = .error .keyError := by
  unfold getCI
  cases hx : alt (N.name = "cuba".toList) n with
  | error e =>
    cases n with
    | nil => exact absurd rfl hn
    | cons c t =>
      obtain ⟨o, ho⟩ := alt_total (N.name = "cuba".toList) c t
      rw [ho] at hx
      exact absurd hx (by simp)
  | ok o =>
    cases o with
    | none => rfl
    | some a =>
      obtain ⟨h1, h2⟩ := ha a hx
      unfold orInverse
      simp [exact_missing hN hl h1, h2]

/-- **C53.** If neither exists and the name does not ask for an inverse, `KeyError` (for `namespace.name`: `AttributeError`; for `namespace.get`: the fallback). -/
theorem unknown_name_raises (hN : Bound R N) (hl : N.byLabel = false) {n : Text} (hn : n ≠ []) (h : ¬ Has R N n)
    (ha : ∀ a, alt (N.name = "cuba".toList) n = .ok (some a) → ¬ Has R N a ∧ invPrefix.isPrefixOf a = false) (hp : invPrefix.isPrefixOf n = false) :
    get R inverse N n = .error .keyError ∧ attr R inverse N n = .error .attributeError ∧ ∀ fb, getOr R inverse N n fb = .ok fb := by
  have hk : get R inverse N n = .error .keyError := get_key (by rw [doGet_missing hN hl h, getCI_missing hN hl hn ha]) hp
  refine ⟨hk, ?_, fun fb => ?_⟩
  · unfold attr; rw [hk]
  · unfold getOr; rw [hk]

theorem invPrefix_length : invPrefix.length = 11 := by decide

theorem drop_inv (x : Text) : (invPrefix ++ x).drop 11 = x := by
  rw [← invPrefix_length, List.drop_left]

theorem isPrefix_inv (x : Text) : invPrefix.isPrefixOf (invPrefix ++ x) = true := by
  rw [List.isPrefixOf_iff_prefix]
  exact ⟨x, rfl⟩

/-- The alternative of INVERSE_OF_x outside of cuba: the same name, or one that begins with I and an underscore. -/
theorem alt_inverse (x : Text) : alt false (invPrefix ++ x) = .ok (some (invPrefix ++ x)) ∨ ∃ t, alt false (invPrefix ++ x) = .ok (some ('I' :: '_' :: t)) := by
  by_cases h : (invPrefix ++ x).any Char.isLower = true
  · right
    refine ⟨upper (snakeTail ("NVERSE_OF_".toList ++ x) |>.tail), ?_⟩
    show alt false ('I' :: ("NVERSE_OF_".toList ++ x)) = _
    rw [alt_plain, if_pos ⟨h, rfl⟩]
    rfl
  · left
    show alt false ('I' :: ("NVERSE_OF_".toList ++ x)) = _
    rw [alt_plain, if_neg (fun k => h k.1)]
    show Except.ok (some (upper (invPrefix ++ x))) = _
    congr 2
    have hn : ∀ c ∈ invPrefix ++ x, c.toUpper = c := by
      intro c hc
      have : ¬ c.isLower = true := fun k => h (List.any_eq_true.2 ⟨c, hc, k⟩)
      unfold Char.toUpper
      unfold Char.isLower at this
      simp only [ge_iff_le, Bool.and_eq_true, decide_eq_true_eq] at this
      split
      · rename_i hk
        exact absurd hk this
      · rfl
    unfold upper
    conv => rhs; rw [← List.map_id (invPrefix ++ x)]
    exact List.map_congr_left hn

/-- **C53.** INVERSE_OF_x, if no entity has this name or its alternative spelling: the inverse of the relationship x. -/
theorem inverse_of_used (hN : Bound R N) (hl : N.byLabel = false) (hc : N.name ≠ "cuba".toList) {x : Text} (h : ¬ Has R N (invPrefix ++ x))
    (ha : ∀ a, alt false (invPrefix ++ x) = .ok (some a) → ¬ Has R N a) (hx : Has R N x) :
    ∃ e, Is R N x e ∧ get R inverse N (invPrefix ++ x) = inverse e := by
  obtain ⟨e, he, hi⟩ := exact_has hN hl hx
  have hd : doGet R inverse N x = .ok e := by unfold doGet; rw [he]
  refine ⟨e, hi, ?_⟩
  have hcu : decide (N.name = "cuba".toList) = false := by simpa using hc
  unfold get orInverse
  rw [doGet_missing hN hl h]
  unfold getCI
  rw [hcu]
  rcases alt_inverse x with h1 | ⟨t, h1⟩
  · rw [h1]
    dsimp only
    unfold orInverse
    rw [exact_missing hN hl h, isPrefix_inv, drop_inv, he, hd]
    simp only [if_true]
    split
    · rfl
    · rfl
  · rw [h1]
    dsimp only
    unfold orInverse
    rw [exact_missing hN hl (ha _ h1)]
    have : invPrefix.isPrefixOf ('I' :: '_' :: t) = false := by
      rfl
    rw [this]
    dsimp only
    rw [isPrefix_inv, drop_inv, hd]
    rfl

end Osp.Names
