import Verif.Sql.Arrays
/-!
# Tables for datatypes (C37), checking identifiers (C38)
-/
namespace Osp.Sql

/-! ### C37 -/

/-- The names a datatype in the namespace `cuba` must not have: its table would look like the table of a datatype of another namespace. Specification; nothing in /repo. -/
def Ambiguous (name : Text) : Prop :=
  "XSD_".toList <+: name ∨ "OWL_".toList <+: name ∨ "RDF_".toList <+: name ∨ "RDFS_".toList <+: name

/-- The datatypes with a table: `ns ++ name` for one of the four standard namespaces, or a custom datatype of `cuba`. Specification; nothing in /repo. -/
inductive Supported : Text → Text → Text → Prop
  | xsd (n : Text) : Supported (xsdIri ++ n) xsdIri n
  | owl (n : Text) : Supported (owlIri ++ n) owlIri n
  | rdf (n : Text) : Supported (rdfIri ++ n) rdfIri n
  | rdfs (n : Text) : Supported (rdfsIri ++ n) rdfsIri n
  | cuba (n : Text) (h : ¬ Ambiguous n) : Supported (cubaIri ++ (dtPart ++ n)) cubaIri (dtPart ++ n)

theorem isPrefixOf_append_self (p n : Text) : p.isPrefixOf (p ++ n) = true := by
  rw [List.isPrefixOf_iff_prefix]; exact List.prefix_append _ _

theorem isPrefixOf_append_iff (p q n : Text) : (p ++ q).isPrefixOf (p ++ n) = q.isPrefixOf n := by
  induction p with
  | nil => rfl
  | cons c p ih => simp only [List.cons_append, List.isPrefixOf_cons_cons, beq_self_eq_true, Bool.true_and, ih]

/-- `p` is not a prefix of `q ++ n`, whatever `n`: they differ inside `q`. -/
theorem not_prefix_of_differ {p q : Text} (h : ∃ i, i < p.length ∧ i < q.length ∧ p[i]? ≠ q[i]?) (n : Text) : p.isPrefixOf (q ++ n) = false := by
  cases hb : p.isPrefixOf (q ++ n) with
  | false => rfl
  | true =>
    rw [List.isPrefixOf_iff_prefix] at hb
    obtain ⟨i, h1, h2, h3⟩ := h
    obtain ⟨u, hu⟩ := hb
    have : (p ++ u)[i]? = (q ++ n)[i]? := by rw [hu]
    rw [List.getElem?_append_left h1, List.getElem?_append_left h2] at this
    exact absurd this h3

theorem table_xsd (n : Text) : dataTableName (xsdIri ++ n) = .ok (tablePrefix ++ "XSD_".toList ++ n) := by
  unfold dataTableName; simp only [isPrefixOf_append_self, if_true, List.drop_left]

theorem table_owl (n : Text) : dataTableName (owlIri ++ n) = .ok (tablePrefix ++ "OWL_".toList ++ n) := by
  unfold dataTableName
  rw [not_prefix_of_differ (p := xsdIri) (q := owlIri) ⟨21, by decide +kernel⟩]
  simp only [isPrefixOf_append_self, if_true, List.drop_left, Bool.false_eq_true, if_false]

theorem table_rdf (n : Text) : dataTableName (rdfIri ++ n) = .ok (tablePrefix ++ "RDF_".toList ++ n) := by
  unfold dataTableName
  rw [not_prefix_of_differ (p := xsdIri) (q := rdfIri) ⟨18, by decide +kernel⟩, not_prefix_of_differ (p := owlIri) (q := rdfIri) ⟨18, by decide +kernel⟩]
  simp only [isPrefixOf_append_self, if_true, List.drop_left, Bool.false_eq_true, if_false]

theorem table_rdfs (n : Text) : dataTableName (rdfsIri ++ n) = .ok (tablePrefix ++ "RDFS_".toList ++ n) := by
  unfold dataTableName
  rw [not_prefix_of_differ (p := xsdIri) (q := rdfsIri) ⟨21, by decide +kernel⟩, not_prefix_of_differ (p := owlIri) (q := rdfsIri) ⟨21, by decide +kernel⟩,
    not_prefix_of_differ (p := rdfIri) (q := rdfsIri) ⟨18, by decide +kernel⟩]
  simp only [isPrefixOf_append_self, if_true, List.drop_left, Bool.false_eq_true, if_false]

theorem table_cuba (n : Text) : dataTableName (cubaIri ++ (dtPart ++ n)) = .ok (tablePrefix ++ n) := by
  unfold dataTableName
  rw [not_prefix_of_differ (p := xsdIri) (q := cubaIri) ⟨11, by decide +kernel⟩, not_prefix_of_differ (p := owlIri) (q := cubaIri) ⟨11, by decide +kernel⟩,
    not_prefix_of_differ (p := rdfIri) (q := cubaIri) ⟨11, by decide +kernel⟩, not_prefix_of_differ (p := rdfsIri) (q := cubaIri) ⟨11, by decide +kernel⟩]
  have e : cubaIri ++ (dtPart ++ n) = (cubaIri ++ dtPart) ++ n := by rw [List.append_assoc]
  rw [e]
  simp only [isPrefixOf_append_self, if_true, List.drop_left, Bool.false_eq_true, if_false]

/-- **C37.** The name of the table determines the datatype again, if `getattr` on the rdflib namespace gives the IRI for this name. Partial: custom datatypes
whose name begins like the table of another namespace are excluded, see `table_clash`. -/
theorem table_name_determines_partial (get : Text → Text → Option Text) {dt ns name : Text} (h : Supported dt ns name) (hget : get ns name = some (ns ++ name)) :
    ∃ t, dataTableName dt = .ok t ∧ determineDatatype get t = some dt := by
  have d : ∀ {p q : Text}, (∃ i, i < p.length ∧ i < q.length ∧ p[i]? ≠ q[i]?) → ∀ n, p.isPrefixOf (q ++ n) = false := not_prefix_of_differ
  cases h with
  | owl n =>
    refine ⟨_, table_owl _, ?_⟩
    unfold determineDatatype
    simp only [isPrefixOf_append_self, if_true, List.drop_left, hget]
  | rdfs n =>
    refine ⟨_, table_rdfs _, ?_⟩
    unfold determineDatatype
    simp only [List.append_assoc, isPrefixOf_append_iff]
    rw [d (p := "OWL_".toList) (q := "RDFS_".toList) ⟨0, by decide +kernel⟩]
    simp only [isPrefixOf_append_self, if_true, Bool.false_eq_true, if_false, ← List.append_assoc, List.drop_left, hget]
  | rdf n =>
    refine ⟨_, table_rdf _, ?_⟩
    unfold determineDatatype
    simp only [List.append_assoc, isPrefixOf_append_iff]
    rw [d (p := "OWL_".toList) (q := "RDF_".toList) ⟨0, by decide +kernel⟩, d (p := "RDFS_".toList) (q := "RDF_".toList) ⟨3, by decide +kernel⟩]
    simp only [isPrefixOf_append_self, if_true, Bool.false_eq_true, if_false, ← List.append_assoc, List.drop_left, hget]
  | xsd n =>
    refine ⟨_, table_xsd _, ?_⟩
    unfold determineDatatype
    simp only [List.append_assoc, isPrefixOf_append_iff]
    rw [d (p := "OWL_".toList) (q := "XSD_".toList) ⟨0, by decide +kernel⟩, d (p := "RDFS_".toList) (q := "XSD_".toList) ⟨0, by decide +kernel⟩,
      d (p := "RDF_".toList) (q := "XSD_".toList) ⟨0, by decide +kernel⟩]
    simp only [isPrefixOf_append_self, if_true, Bool.false_eq_true, if_false, ← List.append_assoc, List.drop_left, hget]
  | cuba n h =>
    refine ⟨_, table_cuba n, ?_⟩
    unfold determineDatatype
    simp only [isPrefixOf_append_iff]
    have f : ∀ p : Text, ¬ p <+: n → p.isPrefixOf n = false := by
      intro p hp
      cases hb : p.isPrefixOf n with
      | false => rfl
      | true => exact absurd ((List.isPrefixOf_iff_prefix).1 hb) hp
    unfold Ambiguous at h
    rw [f _ (fun k => h (Or.inr (Or.inl k))), f _ (fun k => h (Or.inr (Or.inr (Or.inr k)))), f _ (fun k => h (Or.inr (Or.inr (Or.inl k)))), f _ (fun k => h (Or.inl k))]
    simp only [Bool.false_eq_true, if_false, List.drop_left, hget]

/-- **C37.** Different datatypes have different tables. -/
theorem table_name_injective_partial {dt dt' ns ns' name name' : Text} (h : Supported dt ns name) (h' : Supported dt' ns' name') (he : dataTableName dt = dataTableName dt') : dt = dt' := by
  obtain ⟨t, h1, h2⟩ := table_name_determines_partial (fun a b => some (a ++ b)) h rfl
  obtain ⟨t', h3, h4⟩ := table_name_determines_partial (fun a b => some (a ++ b)) h' rfl
  rw [h1, h3] at he
  injection he with he
  rw [he, h4] at h2
  injection h2 with h2
  exact h2.symm

/-- **C37.** Datatypes of other namespaces have no table. -/
theorem unsupported_datatype_refused {dt : Text} (h : ∀ ns ∈ [xsdIri, owlIri, rdfIri, rdfsIri, cubaIri ++ dtPart], ¬ ns <+: dt) : dataTableName dt = .error .notImplementedError := by
  have f : ∀ ns ∈ [xsdIri, owlIri, rdfIri, rdfsIri, cubaIri ++ dtPart], ns.isPrefixOf dt = false := by
    intro ns hns
    cases hb : ns.isPrefixOf dt with
    | false => rfl
    | true => exact absurd ((List.isPrefixOf_iff_prefix).1 hb) (h ns hns)
  unfold dataTableName
  rw [f xsdIri (by simp), f owlIri (by simp), f rdfIri (by simp), f rdfsIri (by simp), f (cubaIri ++ dtPart) (by simp)]
  rfl

/-- All datatypes osp-core creates itself are covered: strings of limited length and vectors. -/
theorem created_datatypes_supported :
    (∀ n, Supported (cubaIri ++ (dtPart ++ ("STRING-".toList ++ dec n))) cubaIri (dtPart ++ ("STRING-".toList ++ dec n))) ∧
    (∀ dt sh, Supported (vecIri dt sh) cubaIri (dtPart ++ ("VECTOR-".toList ++ (dt ++ '-' :: joinWith ['-'] (sh.map dec))))) := by
  have na : ∀ (c : Char) (t : Text), c ≠ 'X' → c ≠ 'O' → c ≠ 'R' → ¬ Ambiguous (c :: t) := by
    intro c t h1 h2 h3 h
    unfold Ambiguous at h
    have l : ∀ (x : Char) (r : Text), (x :: r) <+: (c :: t) → x = c := fun x r k => ((List.cons_prefix_cons).1 k).1
    rcases h with h | h | h | h
    · exact h1 (l 'X' _ h).symm
    · exact h2 (l 'O' _ h).symm
    · exact h3 (l 'R' _ h).symm
    · exact h3 (l 'R' _ h).symm
  constructor
  · intro n
    exact Supported.cuba _ (na 'S' _ (by decide) (by decide) (by decide))
  · intro dt sh
    have e : vecIri dt sh = cubaIri ++ (dtPart ++ ("VECTOR-".toList ++ (dt ++ '-' :: joinWith ['-'] (sh.map dec)))) := by
      have : vecPrefix = cubaIri ++ (dtPart ++ "VECTOR-".toList) := by decide +kernel
      unfold vecIri
      rw [this]
      simp only [List.append_assoc]
    rw [e]
    exact Supported.cuba _ (na 'V' _ (by decide) (by decide) (by decide))

/-- Finding: two datatypes with one table. -/
theorem table_clash : dataTableName (cubaIri ++ (dtPart ++ "XSD_integer".toList)) = dataTableName (xsdIri ++ "integer".toList) ∧
    cubaIri ++ (dtPart ++ "XSD_integer".toList) ≠ xsdIri ++ "integer".toList := by
  decide +kernel

/-! ### C38 -/
variable {V : Type}

/-- `t` occurs somewhere inside the argument: as an entry of a list, a key or value of a dictionary, the table, column or datatype of a condition, at any depth. Specification; nothing in /repo. -/
inductive Inside (t : Text) : Item V → Prop
  | here : Inside t (.str t)
  | list {l : List (Item V)} {x : Item V} : x ∈ l → Inside t x → Inside t (.list l)
  | key {kv : List (Item V × Item V)} {k v : Item V} : (k, v) ∈ kv → Inside t k → Inside t (.dict kv)
  | value {kv : List (Item V × Item V)} {k v : Item V} : (k, v) ∈ kv → Inside t v → Inside t (.dict kv)
  | and {cs : List (Cond V)} {c : Cond V} : c ∈ cs → Inside t (.cond c) → Inside t (.cond (.and cs))
  | table {c : Text} {v : V} {d : Option Text} : Inside t (.cond (.eq t c v d))
  | column {tb : Text} {v : V} {d : Option Text} : Inside t (.cond (.eq tb t v d))
  | datatype {tb c : Text} {v : V} : Inside t (.cond (.eq tb c v (some t)))
  | table1 {c1 t2 c2 : Text} : Inside t (.cond (.join t c1 t2 c2))
  | column1 {t1 t2 c2 : Text} : Inside t (.cond (.join t1 t t2 c2))
  | table2 {t1 c1 c2 : Text} : Inside t (.cond (.join t1 c1 t c2))
  | column2 {t1 c1 t2 : Text} : Inside t (.cond (.join t1 c1 t2 t))

/-- An object of an unsupported type occurs inside the argument. Specification; nothing in /repo. -/
inductive Odd : Item V → Prop
  | here : Odd .other
  | list {l : List (Item V)} {x : Item V} : x ∈ l → Odd x → Odd (.list l)
  | key {kv : List (Item V × Item V)} {k v : Item V} : (k, v) ∈ kv → Odd k → Odd (.dict kv)
  | value {kv : List (Item V × Item V)} {k v : Item V} : (k, v) ∈ kv → Odd v → Odd (.dict kv)
  | and {cs : List (Cond V)} {c : Cond V} : c ∈ cs → Odd (.cond c) → Odd (.cond (.and cs))

/-- As the loop sees it. Proof device; nothing in /repo. -/
inductive Inside' (t : Text) : Item V → Prop
  | here : Inside' t (.str t)
  | child {x y : Item V} : y ∈ x.children → Inside' t y → Inside' t x

/-- Proof device; nothing in /repo. -/
inductive Odd' : Item V → Prop
  | here : Odd' .other
  | child {x y : Item V} : y ∈ x.children → Odd' y → Odd' x

theorem inside_iff (t : Text) (x : Item V) : Inside' t x ↔ Inside t x := by
  constructor
  · intro h
    induction h with
    | here => exact .here
    | @child x y hy hi ih =>
      cases x with
      | str => exact absurd hy (by simp [Item.children])
      | none => exact absurd hy (by simp [Item.children])
      | other => exact absurd hy (by simp [Item.children])
      | list l => exact .list hy ih
      | dict kv =>
        simp only [Item.children, List.mem_append, List.mem_map] at hy
        rcases hy with ⟨⟨k, v⟩, hm, rfl⟩ | ⟨⟨k, v⟩, hm, rfl⟩
        · exact .key hm ih
        · exact .value hm ih
      | cond c =>
        cases c with
        | and cs =>
          simp only [Item.children, List.mem_map] at hy
          obtain ⟨c, hc, rfl⟩ := hy
          exact .and hc ih
        | eq tb c v d =>
          simp only [Item.children, List.mem_cons, List.not_mem_nil, or_false] at hy
          rcases hy with rfl | rfl | rfl
          · cases ih; exact .table
          · cases ih; exact .column
          · cases d with
            | none => cases ih
            | some d => cases ih; exact .datatype
        | join t1 c1 t2 c2 =>
          simp only [Item.children, List.mem_cons, List.not_mem_nil, or_false] at hy
          rcases hy with rfl | rfl | rfl | rfl
          · cases ih; exact .table1
          · cases ih; exact .column1
          · cases ih; exact .table2
          · cases ih; exact .column2
  · intro h
    induction h with
    | here => exact .here
    | list hm _ ih => exact .child hm ih
    | key hm _ ih => exact .child (List.mem_append_left _ (List.mem_map.2 ⟨_, hm, rfl⟩)) ih
    | value hm _ ih => exact .child (List.mem_append_right _ (List.mem_map.2 ⟨_, hm, rfl⟩)) ih
    | and hm _ ih => exact .child (List.mem_map.2 ⟨_, hm, rfl⟩) ih
    | table => exact .child (y := .str t) (by simp [Item.children]) .here
    | column => exact .child (y := .str t) (by simp [Item.children]) .here
    | datatype => exact .child (y := .str t) (by simp [Item.children, optItem]) .here
    | table1 => exact .child (y := .str t) (by simp [Item.children]) .here
    | column1 => exact .child (y := .str t) (by simp [Item.children]) .here
    | table2 => exact .child (y := .str t) (by simp [Item.children]) .here
    | column2 => exact .child (y := .str t) (by simp [Item.children]) .here

theorem odd_iff (x : Item V) : Odd' x ↔ Odd x := by
  constructor
  · intro h
    induction h with
    | here => exact .here
    | @child x y hy hi ih =>
      cases x with
      | str => exact absurd hy (by simp [Item.children])
      | none => exact absurd hy (by simp [Item.children])
      | other => exact absurd hy (by simp [Item.children])
      | list l => exact .list hy ih
      | dict kv =>
        simp only [Item.children, List.mem_append, List.mem_map] at hy
        rcases hy with ⟨⟨k, v⟩, hm, rfl⟩ | ⟨⟨k, v⟩, hm, rfl⟩
        · exact .key hm ih
        · exact .value hm ih
      | cond c =>
        cases c with
        | and cs =>
          simp only [Item.children, List.mem_map] at hy
          obtain ⟨c, hc, rfl⟩ := hy
          exact .and hc ih
        | eq tb c v d =>
          simp only [Item.children, List.mem_cons, List.not_mem_nil, or_false] at hy
          rcases hy with rfl | rfl | rfl
          · cases ih
          · cases ih
          · cases d <;> cases ih
        | join t1 c1 t2 c2 =>
          simp only [Item.children, List.mem_cons, List.not_mem_nil, or_false] at hy
          rcases hy with rfl | rfl | rfl | rfl <;> cases ih
  · intro h
    induction h with
    | here => exact .here
    | list hm _ ih => exact .child hm ih
    | key hm _ ih => exact .child (List.mem_append_left _ (List.mem_map.2 ⟨_, hm, rfl⟩)) ih
    | value hm _ ih => exact .child (List.mem_append_right _ (List.mem_map.2 ⟨_, hm, rfl⟩)) ih
    | and hm _ ih => exact .child (List.mem_map.2 ⟨_, hm, rfl⟩) ih

mutual
/-- Number of steps for a condition. Proof device; nothing in /repo. -/
def Cond.weight : Cond V → Nat
  | .eq .. => 4
  | .join .. => 5
  | .and cs => 1 + Cond.weightL cs
/-- Proof device; nothing in /repo. -/
def Cond.weightL : List (Cond V) → Nat
  | [] => 0
  | c :: cs => c.weight + Cond.weightL cs
end

mutual
/-- Number of steps for an argument. Proof device; nothing in /repo. -/
def Item.weight : Item V → Nat
  | .str _ => 1
  | .none => 1
  | .other => 1
  | .cond c => c.weight
  | .list l => 1 + Item.weightL l
  | .dict kv => 1 + Item.weightKV kv
/-- Proof device; nothing in /repo. -/
def Item.weightL : List (Item V) → Nat
  | [] => 0
  | x :: xs => x.weight + Item.weightL xs
/-- Proof device; nothing in /repo. -/
def Item.weightKV : List (Item V × Item V) → Nat
  | [] => 0
  | (k, v) :: xs => k.weight + v.weight + Item.weightKV xs
end

theorem weightL_append (a b : List (Item V)) : Item.weightL (a ++ b) = Item.weightL a + Item.weightL b := by
  induction a with
  | nil => simp [Item.weightL]
  | cons x xs ih => simp [Item.weightL, ih, Nat.add_assoc]

theorem weightL_reverse (a : List (Item V)) : Item.weightL a.reverse = Item.weightL a := by
  induction a with
  | nil => rfl
  | cons x xs ih => simp [weightL_append, Item.weightL, ih, Nat.add_comm]

theorem weight_cond (cs : List (Cond V)) : Item.weightL (cs.map Item.cond) = Cond.weightL cs := by
  induction cs with
  | nil => rfl
  | cons c cs ih => simp [Item.weightL, Item.weight, Cond.weightL, ih]

theorem weight_kv (kv : List (Item V × Item V)) : Item.weightL (kv.map Prod.fst ++ kv.map Prod.snd) = Item.weightKV kv := by
  rw [weightL_append]
  induction kv with
  | nil => rfl
  | cons x xs ih =>
    obtain ⟨k, v⟩ := x
    simp only [List.map_cons, Item.weightL, Item.weightKV]
    omega

theorem weight_children (x : Item V) : Item.weightL x.children + 1 ≤ x.weight := by
  cases x with
  | str t => simp [Item.children, Item.weightL, Item.weight]
  | none => simp [Item.children, Item.weightL, Item.weight]
  | other => simp [Item.children, Item.weightL, Item.weight]
  | list l => simp only [Item.children, Item.weight]; omega
  | dict kv => simp only [Item.children, Item.weight, weight_kv]; omega
  | cond c =>
    cases c with
    | eq t c v d => cases d <;> simp [Item.children, Item.weightL, Item.weight, Cond.weight, optItem]
    | join => simp [Item.children, Item.weightL, Item.weight, Cond.weight]
    | and cs => simp only [Item.children, Item.weight, Cond.weight, weight_cond]; omega

/-- Nothing in the list contains the character or is of an unsupported type. Proof device; nothing in /repo. -/
def Clean (c : Char) (l : List (Item V)) : Prop := ∀ x ∈ l, (∀ t, Inside' t x → c ∉ t) ∧ ¬ Odd' x

theorem clean_cons {c : Char} {x : Item V} {l : List (Item V)} : Clean c (x :: l) ↔ ((∀ t, Inside' t x → c ∉ t) ∧ ¬ Odd' x) ∧ Clean c l := by
  unfold Clean
  simp

theorem clean_expand {c : Char} {x : Item V} (hx : ∀ t, x ≠ .str t) (ho : x ≠ .other) {l : List (Item V)} : Clean c (x.children.reverse ++ l) ↔ Clean c (x :: l) := by
  rw [clean_cons]
  constructor
  · intro h
    refine ⟨⟨?_, ?_⟩, fun y hy => h y (List.mem_append_right _ hy)⟩
    · intro t ht
      cases ht with
      | here => exact absurd rfl (hx t)
      | child hy hi => exact (h _ (List.mem_append_left _ (List.mem_reverse.2 hy))).1 t hi
    · intro k
      cases k with
      | here => exact ho rfl
      | child hy hi => exact (h _ (List.mem_append_left _ (List.mem_reverse.2 hy))).2 hi
  · rintro ⟨⟨h1, h2⟩, h3⟩ y hy
    rcases List.mem_append.1 hy with hy | hy
    · exact ⟨fun t ht => h1 t (.child (List.mem_reverse.1 hy) ht), fun k => h2 (.child (List.mem_reverse.1 hy) k)⟩
    · exact h3 y hy

theorem checkLoop_spec (c : Char) : ∀ (n : Nat) (l : List (Item V)), Item.weightL l ≤ n → (Clean c l ∧ checkLoop c n l = .ok []) ∨ (¬ Clean c l ∧ checkLoop c n l = .error .valueError) := by
  intro n
  induction n with
  | zero =>
    intro l h
    cases l with
    | nil => exact Or.inl ⟨by simp [Clean], rfl⟩
    | cons x l =>
      have := weight_children x
      simp only [Item.weightL] at h
      omega
  | succ n ih =>
    intro l h
    cases l with
    | nil => exact Or.inl ⟨by simp [Clean], rfl⟩
    | cons x l =>
      simp only [Item.weightL] at h
      have hw := weight_children x
      have expand : (∀ t, x ≠ .str t) → x ≠ .other → checkLoop c (n + 1) (x :: l) = checkLoop c n (x.children.reverse ++ l) →
          (Clean c (x :: l) ∧ checkLoop c (n + 1) (x :: l) = .ok []) ∨ (¬ Clean c (x :: l) ∧ checkLoop c (n + 1) (x :: l) = .error .valueError) := by
        intro h1 h2 h3
        rw [h3, ← clean_expand h1 h2]
        apply ih
        rw [weightL_append, weightL_reverse]
        omega
      cases x with
      | str t =>
        by_cases hc : c ∈ t
        · right
          refine ⟨fun k => (clean_cons.1 k).1.1 t .here hc, ?_⟩
          rw [checkLoop, if_pos hc]
        · have hx : Clean c ((.str t : Item V) :: l) ↔ Clean c l := by
            rw [clean_cons]
            refine ⟨fun k => k.2, fun k => ⟨⟨?_, ?_⟩, k⟩⟩
            · intro u hu
              cases hu with
              | here => exact hc
              | child hy _ => simp [Item.children] at hy
            · intro k
              cases k with
              | child hy _ => simp [Item.children] at hy
          rw [hx, checkLoop, if_neg hc]
          exact ih l (by omega)
      | other =>
        right
        exact ⟨fun k => (clean_cons.1 k).1.2 .here, rfl⟩
      | none => exact expand (fun t h => by cases h) (fun h => by cases h) rfl
      | list m => exact expand (fun t h => by cases h) (fun h => by cases h) rfl
      | dict kv => exact expand (fun t h => by cases h) (fun h => by cases h) rfl
      | cond k => exact expand (fun t h => by cases h) (fun h => by cases h) rfl

theorem checkChars_nil : ∀ (n : Nat) (cs : List Char), checkChars n cs ([] : List (Item V)) = .ok () := by
  intro n cs
  induction cs with
  | nil => rfl
  | cons c cs ih =>
    have : checkLoop c n ([] : List (Item V)) = .ok [] := by cases n <;> rfl
    rw [checkChars, this]
    exact ih

/-- **C38.** `check_characters` raises exactly if some text inside the arguments, at any depth of lists, dictionaries and conditions, contains a semicolon
or if there is an object it does not know. Partial: it should raise for all forbidden characters, but only the first one is checked, see `quote_not_rejected`. -/
theorem check_characters_partial (args : List (Item V)) :
    ∃ n, ∀ fuel, n ≤ fuel →
      ((∀ x ∈ args, (∀ t, Inside t x → ';' ∉ t) ∧ ¬ Odd x) → checkChars fuel forbidden args.reverse = .ok ()) ∧
      (¬ (∀ x ∈ args, (∀ t, Inside t x → ';' ∉ t) ∧ ¬ Odd x) → checkChars fuel forbidden args.reverse = .error .valueError) := by
  refine ⟨Item.weightL args, fun fuel hf => ?_⟩
  have hc : Clean ';' args.reverse ↔ ∀ x ∈ args, (∀ t, Inside t x → ';' ∉ t) ∧ ¬ Odd x := by
    unfold Clean
    simp only [List.mem_reverse, inside_iff, odd_iff]
  rw [← hc]
  have e : checkChars fuel forbidden args.reverse = (match checkLoop ';' fuel args.reverse with | .error e => (.error e : Except PyErr Unit) | .ok l => checkChars fuel forbidden.tail l) := rfl
  rw [e]
  rcases checkLoop_spec ';' fuel args.reverse (by rw [weightL_reverse]; exact hf) with ⟨h1, h2⟩ | ⟨h1, h2⟩
  · rw [h2]
    exact ⟨fun _ => checkChars_nil _ _, fun k => absurd h1 k⟩
  · rw [h2]
    exact ⟨fun k => absurd k h1, fun _ => rfl⟩

/-- Finding: quotes, backticks, backslashes and control characters in identifiers are accepted. For every forbidden character other than the semicolon. -/
theorem quote_not_rejected : ∀ c ∈ forbidden, c ≠ ';' → ∀ fuel, 1 ≤ fuel → checkChars fuel forbidden [(.str ['a', c] : Item V)] = .ok () := by
  intro c _ hne fuel hf
  obtain ⟨n, hn⟩ := Nat.exists_eq_add_of_le hf
  subst hn
  have hm : ¬ ';' ∈ ['a', c] := by
    simp only [List.mem_cons, List.not_mem_nil, or_false]
    rintro (h | h)
    · revert h; decide
    · exact hne h.symm
  have : checkLoop ';' (1 + n) [(.str ['a', c] : Item V)] = .ok [] := by
    rw [Nat.add_comm, checkLoop, if_neg hm]
    cases n <;> rfl
  show (match checkLoop ';' (1 + n) [(.str ['a', c] : Item V)] with | .error e => (.error e : Except PyErr Unit) | .ok l => checkChars (1 + n) forbidden.tail l) = _
  rw [this]
  exact checkChars_nil _ _

/-- A nested argument that is rejected and one that is accepted. -/
example : checkChars 100 forbidden [(.list [.str "a".toList, .dict [(.str "k".toList, .cond (.and [.eq "t".toList "x;".toList 1 none]))]] : Item Nat)] = .error .valueError ∧
    checkChars 100 forbidden [(.list [.str "a".toList, .dict [(.str "k".toList, .cond (.and [.eq "t".toList "x".toList 1 none]))]] : Item Nat)] = .ok () := by
  decide +kernel

end Osp.Sql
