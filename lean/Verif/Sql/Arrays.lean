import Verif.Sql.Model
/-!
# Vector values (C52)
-/
namespace Osp.Sql
variable {V : Type}

/-- The array has this shape. Specification; nothing in /repo. -/
def HasShape : List Nat → Nested V → Prop
  | [], .leaf _ => True
  | n :: sh, .list l => l.length = n ∧ ∀ x ∈ l, HasShape sh x
  | _, _ => False

theorem flat_go (l : List (Nested V)) : Nested.flat.go l = (l.map Nested.flat).flatten := by
  induction l with
  | nil => rfl
  | cons x xs ih => simp [Nested.flat.go, ih]

theorem flat_list (l : List (Nested V)) : (Nested.list l).flat = (l.map Nested.flat).flatten := by
  rw [Nested.flat, flat_go]

theorem shapeSize_cons (n : Nat) (sh : List Nat) : shapeSize (n :: sh) = n * shapeSize sh := rfl

theorem flatten_length_const {α : Type} (k : Nat) : ∀ l : List (List α), (∀ x ∈ l, x.length = k) → l.flatten.length = l.length * k := by
  intro l
  induction l with
  | nil => intro _; simp
  | cons x xs ih =>
    intro h
    rw [List.flatten_cons, List.length_append, ih (fun y hy => h y (List.mem_cons_of_mem _ hy)), h x List.mem_cons_self, List.length_cons, Nat.succ_mul]
    omega

theorem flat_length : ∀ (sh : List Nat) (a : Nested V), HasShape sh a → a.flat.length = shapeSize sh := by
  intro sh
  induction sh with
  | nil =>
    intro a h
    cases a with
    | leaf v => simp [Nested.flat, shapeSize]
    | list l => exact h.elim
  | cons n sh ih =>
    intro a h
    cases a with
    | leaf v => exact h.elim
    | list l =>
      obtain ⟨h1, h2⟩ := h
      rw [flat_list, flatten_length_const (shapeSize sh), List.length_map, h1, shapeSize_cons]
      intro x hx
      obtain ⟨y, hy, rfl⟩ := List.mem_map.1 hx
      exact ih y (h2 y hy)

theorem chunks_flatten {α : Type} (k : Nat) : ∀ l : List (List α), (∀ x ∈ l, x.length = k) → chunks k l.length l.flatten = l := by
  intro l
  induction l with
  | nil => intro _; rfl
  | cons x xs ih =>
    intro h
    have hx := h x List.mem_cons_self
    simp only [List.length_cons, List.flatten_cons, chunks]
    rw [List.take_append_of_le_length (by omega), List.drop_append_of_le_length (by omega), List.take_of_length_le (by omega), List.drop_of_length_le (by omega), List.nil_append,
      ih (fun y hy => h y (List.mem_cons_of_mem _ hy))]

theorem chunks_spec {α : Type} (k : Nat) : ∀ (n : Nat) (l : List α), l.length = n * k → (chunks k n l).length = n ∧ (chunks k n l).flatten = l ∧ ∀ x ∈ chunks k n l, x.length = k := by
  intro n
  induction n with
  | zero => intro l h; simp at h; subst h; simp [chunks]
  | succ n ih =>
    intro l h
    rw [Nat.succ_mul] at h
    obtain ⟨h1, h2, h3⟩ := ih (l.drop k) (by rw [List.length_drop]; omega)
    simp only [chunks, List.length_cons, List.flatten_cons, h1, h2, List.take_append_drop, true_and]
    intro x hx
    rcases List.mem_cons.1 hx with rfl | hx
    · rw [List.length_take]; omega
    · exact h3 x hx

variable [Inhabited V]

theorem map_eq_self {α : Type} {f : α → α} {l : List α} (h : ∀ x ∈ l, f x = x) : l.map f = l :=
  (List.map_congr_left h).trans (List.map_id' l)

theorem build_flat : ∀ (sh : List Nat) (a : Nested V), HasShape sh a → build sh a.flat = a := by
  intro sh
  induction sh with
  | nil =>
    intro a h
    cases a with
    | leaf v => simp [Nested.flat, build]
    | list l => exact h.elim
  | cons n sh ih =>
    intro a h
    cases a with
    | leaf v => exact h.elim
    | list l =>
      obtain ⟨h1, h2⟩ := h
      rw [build, flat_list]
      have hc := chunks_flatten (shapeSize sh) (l.map Nested.flat) (by
        intro x hx
        obtain ⟨y, hy, rfl⟩ := List.mem_map.1 hx
        exact flat_length sh y (h2 y hy))
      rw [List.length_map, h1] at hc
      rw [hc, List.map_map]
      congr 1
      exact map_eq_self (fun x hx => ih x (h2 x hx))

theorem flat_build : ∀ (sh : List Nat) (l : List V), l.length = shapeSize sh → HasShape sh (build sh l) ∧ (build sh l).flat = l := by
  intro sh
  induction sh with
  | nil =>
    intro l h
    cases l with
    | nil => simp [shapeSize] at h
    | cons v t =>
      cases t with
      | nil => exact ⟨trivial, rfl⟩
      | cons _ _ => simp [shapeSize] at h
  | cons n sh ih =>
    intro l h
    rw [shapeSize_cons] at h
    obtain ⟨h1, h2, h3⟩ := chunks_spec (shapeSize sh) n l h
    rw [build]
    refine ⟨⟨by rw [List.length_map, h1], ?_⟩, ?_⟩
    · intro x hx
      obtain ⟨y, hy, rfl⟩ := List.mem_map.1 hx
      exact (ih y (h3 y hy)).1
    · rw [flat_list, List.map_map]
      have : (chunks (shapeSize sh) n l).map (Nested.flat ∘ build sh) = chunks (shapeSize sh) n l :=
        map_eq_self (fun x hx => (ih x (h3 x hx)).2)
      rw [this, h2]

/-- **C52.** An array of the declared shape is stored as the list of its elements, and converting that list to the datatype gives the array back; for all
shapes, with dimensions of any size including zero. -/
theorem vector_roundtrip (sh : List Nat) (a : Nested V) (h : HasShape sh a) : reshape sh a.flat = .ok a := by
  unfold reshape
  rw [if_pos (flat_length sh a h), build_flat sh a h]

/-- **C52.** A value with any other number of elements is rejected, and whatever is accepted gives an array of the declared shape with the given elements in
the given order. -/
theorem vector_rejects (sh : List Nat) (l : List V) :
    (l.length ≠ shapeSize sh → reshape sh l = .error .valueError) ∧
    (∀ a, reshape sh l = .ok a → HasShape sh a ∧ a.flat = l) ∧ (l.length = shapeSize sh → ∃ a, reshape sh l = .ok a) := by
  unfold reshape
  refine ⟨fun h => if_neg h, ?_, fun h => ⟨_, if_pos h⟩⟩
  intro a h
  split at h
  · rename_i hl
    injection h with h
    subst h
    exact flat_build sh l hl
  · cases h

/-- An array of another shape with the same number of elements is accepted and reshaped silently. -/
theorem other_shape_accepted :
    let a : Nested Nat := .list [.list [.leaf 1, .leaf 2, .leaf 3], .list [.leaf 4, .leaf 5, .leaf 6]]
    HasShape [2, 3] a ∧ reshape [3, 2] a.flat = .ok (.list [.list [.leaf 1, .leaf 2], .list [.leaf 3, .leaf 4], .list [.leaf 5, .leaf 6]]) := by
  refine ⟨?_, rfl⟩
  simp [HasShape]

example : HasShape [2, 0, 3] (V := Nat) (.list [.list [], .list []]) := by simp [HasShape]

/-! ### the IRIs of vector datatypes -/

theorem yml_facts : ∀ t ∈ ymlNames, '-' ∉ t ∧ (∃ c ∈ t, 'A' ≤ c) := by decide

theorem mapM_dec (sh : List Nat) : (sh.map dec).mapM (fun t => (pyInt t).bind (fun i => if 0 ≤ i then some i.toNat else none)) = some sh := by
  induction sh with
  | nil => rfl
  | cons n sh ih =>
    rw [List.map_cons, List.mapM_cons, ih, pyInt_dec]
    simp

theorem mem_ymlNames {t : Text} : t ∈ ymlNames ↔ t = "BOOL".toList ∨ t = "INT".toList ∨ t = "FLOAT".toList ∨ t = "STRING".toList ∨ t = "UUID".toList := by
  simp [ymlNames]

/-- The IRI of a vector datatype determines its element type and shape. -/
theorem vector_iri_roundtrip (dt : Text) (hdt : dt ∈ ymlNames) (sh : List Nat) (hsh : sh ≠ []) : parseVecIri (vecIri dt sh) = .ok (dt, sh) := by
  unfold parseVecIri vecIri
  rw [List.append_assoc, List.drop_left]
  have hsplit : splitOn '-' (dt ++ '-' :: joinWith ['-'] (sh.map dec)) = dt :: sh.map dec := by
    rw [splitOn_append '-' _ _ (yml_facts dt hdt).1, splitOn_joinWith '-' _ (by simpa using hsh)]
    intro x hx
    obtain ⟨n, _, rfl⟩ := List.mem_map.1 hx
    exact fun h => (isDigit_ne (dec_digits n _ h)).2.1 rfl
  rw [hsplit]
  unfold parseVectorArgs
  simp only [hdt, if_true]
  rw [mapM_dec]

/-- **C52.** The IRI of a vector datatype with elements of one of the five YAML datatypes determines the datatype of the elements and the shape. -/
theorem vector_iri_names (dt : Text) (hdt : dt = "BOOL".toList ∨ dt = "INT".toList ∨ dt = "FLOAT".toList ∨ dt = "STRING".toList ∨ dt = "UUID".toList) (sh : List Nat) (hsh : sh ≠ []) :
    parseVecIri (vecIri dt sh) = .ok (dt, sh) := vector_iri_roundtrip dt (mem_ymlNames.2 hdt) sh hsh

theorem isVec_vecIri (dt : Text) (sh : List Nat) : isVec (vecIri dt sh) = true := by
  unfold isVec vecIri
  rw [List.isPrefixOf_iff_prefix, List.append_assoc]
  exact List.prefix_append _ _

/-- Finding: a vector datatype without dimensions has an IRI that no later step can read. -/
theorem vector_without_dimension : parseVecIri (vecIri "FLOAT".toList []) = .error .valueError := by decide +kernel

end Osp.Sql
