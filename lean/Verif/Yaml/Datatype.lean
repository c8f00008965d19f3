import Verif.Yaml.Spec
/-!
# Datatypes of attributes (C66)

Model of `osp/core/ontology/datatypes.py` (cited as dt:): from the datatype written in a YAML ontology to the IRI in the graph, and from that IRI to the conversion that is applied to values.
-/
namespace Osp.Yaml

/-- The basic datatypes, dt:128-135, 165-171. -/
inductive Basic where
  | bool | int | float | string | uuid
  deriving DecidableEq

/-- Their names in YAML, dt:165-171. -/
def Basic.name : Basic → Text
  | .bool => "BOOL".toList
  | .int => "INT".toList
  | .float => "FLOAT".toList
  | .string => "STRING".toList
  | .uuid => "UUID".toList

/-- Their IRIs, dt:165-171 (`UUID` is no IRI). -/
def Basic.iri : Basic → Text
  | .bool => "http://www.w3.org/2001/XMLSchema#boolean".toList
  | .int => "http://www.w3.org/2001/XMLSchema#integer".toList
  | .float => "http://www.w3.org/2001/XMLSchema#float".toList
  | .string => "http://www.w3.org/2001/XMLSchema#string".toList
  | .uuid => "UUID".toList

/-- datatypes.py 128-136, 165-171: the keys of YML_DATATYPES. -/
def basics : List Basic := [.bool, .int, .float, .string, .uuid]

/-- `x in YML_DATATYPES` and `YML_DATATYPES[x]`. datatypes.py 174-194. -/
def basicOf (t : Text) : Option Basic := basics.find? (fun b => b.name == t)
/-- `x in RDF_DATATYPES`. datatypes.py 138-172. -/
def basicOfIri (t : Text) : Option Basic := basics.find? (fun b => b.iri == t)

/-- The part of the IRIs of datatypes that is the same, dt:152-153 and cuba.py:6. -/
def dtPrefix : Text := "http://www.osp-core.com/cuba#_datatypes/".toList
/-- `rdflib_cuba["_datatypes/STRING-"]`, dt:152. -/
def strPrefix : Text := dtPrefix ++ "STRING-".toList
/-- `rdflib_cuba["_datatypes/VECTOR-"]`, dt:153. -/
def vecPrefix : Text := dtPrefix ++ "VECTOR-".toList

/-- `list(map(int, shape))`. datatypes.py 196-217. -/
def ints : List Text → Except PyErr (List Int)
  | [] => .ok []
  | x :: xs => match pyInt x with
    | none => .error .valueError
    | some i => match ints xs with
      | .ok l => .ok (i :: l)
      | .error e => .error e

/-- `str(i)`. Python itself; models nothing in /repo. -/
def intStr (i : Int) : Text := if i < 0 then '-' :: dec i.natAbs else dec i.natAbs

/-- `_parse_vector_args`, dt:196-216: the elements' datatype is FLOAT unless given. -/
def vectorArgs : List Text → Except PyErr (Basic × List Int)
  | [] => .error .indexError
  | a :: args => match basicOf a with
    | some b => match ints args with
      | .ok l => .ok (b, l)
      | .error e => .error e
    | none => match ints (a :: args) with
      | .ok l => .ok (.float, l)
      | .error e => .error e

/-- The IRI made by `_add_vector_datatype`, dt:252-254. -/
def vectorIri (b : Basic) (shape : List Int) : Text := vecPrefix ++ b.name ++ ['-'] ++ joinWith ['-'] (shape.map intStr)

/-- `get_rdflib_datatype`, dt:174-193, and 219-236, 239-265. The triple that declares a new datatype is added by the caller of this function in the model of the parser. -/
def getRdflib (y : Text) : Except PyErr (Option Text) :=
  match basicOf y with
  | some b => .ok (some b.iri)
  | none => match splitOn ':' y with
    | [] => .ok none
    | a :: args =>
      if a = "VECTOR".toList then match vectorArgs args with
        | .ok (b, shape) => .ok (some (vectorIri b shape))
        | .error e => .error e
      else if a = "STRING".toList then match args with
        | [n] => match pyInt n with
          | some i => .ok (some (strPrefix ++ intStr i))
          | none => .error .valueError
        | _ => .ok none
      else .ok none

/-- The conversion `get_python_datatype` returns: dt:128-135, 153-161. -/
inductive Conv where
  | basic (b : Basic)
  | maxStr (n : Int)
  | vector (b : Basic) (shape : List Int)
  deriving DecidableEq

/-- `get_python_datatype`, dt:138-162; `none` is an attribute without datatype. -/
def getPython : Option Text → Except PyErr Conv
  | none => .ok (.basic .string)
  | some iri => match basicOfIri iri with
    | some b => .ok (.basic b)
    | none =>
      if strPrefix.isPrefixOf iri then match pyInt (iri.drop strPrefix.length) with
        | some i => .ok (.maxStr i)
        | none => .error .valueError
      else if vecPrefix.isPrefixOf iri then match vectorArgs (splitOn '-' (iri.drop strPrefix.length)) with
        | .ok (b, shape) => .ok (.vector b shape)
        | .error e => .error e
      else .error .runtimeError

/-- `to_string`, dt:76-94, on a text: `none` is the ValueError. -/
def toString (maxsize : Int) (x : Text) : Option Text := if maxsize ≠ 0 ∧ maxsize < (x.length : Int) then none else some x

/-! ### specification -/

/-- The number written as a row of digits. Specification; nothing in /repo. -/
def value (n : Text) : Int := (digitsValue n 0 : Nat)

/-- `:a:b:c`. Specification; nothing in /repo. -/
def sizes (ns : List Text) : Text := (ns.map (fun n => ':' :: n)).flatten

/-- What a datatype in a YAML ontology stands for. Specification; nothing in /repo. -/
inductive Meaning : Text → Conv → Prop where
  | basic (b : Basic) : Meaning b.name (.basic b)
  | string {n : Text} : Digits isDig n → Meaning ("STRING:".toList ++ n) (.maxStr (value n))
  | floats {ns : List Text} : ns ≠ [] → (∀ n ∈ ns, Digits isDig n) → Meaning ("VECTOR".toList ++ sizes ns) (.vector .float (ns.map value))
  | vector {b : Basic} {ns : List Text} : ns ≠ [] → (∀ n ∈ ns, Digits isDig n) → Meaning ("VECTOR:".toList ++ b.name ++ sizes ns) (.vector b (ns.map value))

/-! ### proofs -/

theorem isDig_iff (c : Char) : isDig c = true ↔ IsDigit c := by
  unfold isDig IsDigit
  constructor
  · intro h
    simp only [Bool.and_eq_true, decide_eq_true_eq] at h
    have h1 : '0'.toNat ≤ c.toNat := h.1
    have h2 : c.toNat ≤ '9'.toNat := h.2
    refine ⟨c.toNat - 48, by simp at h1 h2; omega, ?_⟩
    unfold digitChar
    rw [show 48 + (c.toNat - 48) = c.toNat from by simp at h1; omega]
    exact (Char.ofNat_toNat c).symm
  · rintro ⟨n, hn, rfl⟩
    revert n
    decide

theorem digits_isDigit {n : Text} (h : Digits isDig n) : ∀ c ∈ n, IsDigit c := fun c hc => (isDig_iff c).1 (h.2 c hc)

theorem digits_no (c : Char) (hc : isDig c = false) {n : Text} (h : Digits isDig n) : c ∉ n := by
  intro hm
  rw [h.2 c hm] at hc
  cases hc

theorem pyInt_digits {n : Text} (h : Digits isDig n) : pyInt n = some (value n) := by
  have hd := digits_isDigit h
  have hv := decDigits_digits n false 0 hd (Or.inr h.1)
  unfold pyInt value
  rw [strip_digits hd]
  split
  · exact absurd List.mem_cons_self (digits_no '+' (by decide) h)
  · exact absurd List.mem_cons_self (digits_no '-' (by decide) h)
  · rw [hv]; rfl

theorem intStr_value (n : Text) : intStr (value n) = dec (digitsValue n 0) := by
  unfold intStr value
  rw [if_neg (by omega)]
  rfl

theorem pyInt_intStr_value (n : Text) : pyInt (intStr (value n)) = some (value n) := by
  rw [intStr_value, pyInt_dec]; rfl

theorem ints_digits {ns : List Text} (h : ∀ n ∈ ns, Digits isDig n) : ints ns = .ok (ns.map value) := by
  induction ns with
  | nil => rfl
  | cons n ns ih =>
    rw [ints, pyInt_digits (h n List.mem_cons_self), ih (fun m hm => h m (List.mem_cons_of_mem _ hm))]
    rfl

theorem ints_intStr (ns : List Text) : ints ((ns.map value).map intStr) = .ok (ns.map value) := by
  induction ns with
  | nil => rfl
  | cons n ns ih => rw [List.map_cons, List.map_cons, ints, pyInt_intStr_value, ih]

theorem sizes_cons (n : Text) (ns : List Text) : sizes (n :: ns) = ':' :: joinWith [':'] (n :: ns) := by
  induction ns generalizing n with
  | nil => simp [sizes, joinWith]
  | cons m ns ih =>
    have := ih m
    simp only [sizes, List.map_cons, List.flatten_cons] at this ⊢
    rw [this]
    simp [joinWith]

theorem split_sizes {a : Text} (ha : ':' ∉ a) {ns : List Text} (h : ∀ n ∈ ns, Digits isDig n) : splitOn ':' (a ++ sizes ns) = a :: ns := by
  cases ns with
  | nil => simp only [sizes, List.map_nil, List.flatten_nil, List.append_nil]; exact splitOn_none _ _ ha
  | cons n ns =>
    rw [sizes_cons, splitOn_append _ _ _ ha, splitOn_joinWith _ _ (by simp) (fun x hx => digits_no ':' (by decide) (h x hx))]

theorem basicOf_none {t : Text} (h : ∀ b : Basic, b.name ≠ t) : basicOf t = none := by
  unfold basicOf
  rw [List.find?_eq_none]
  intro b _
  simp only [beq_iff_eq]
  exact h b

theorem basicOf_name (b : Basic) : basicOf b.name = some b := by cases b <;> decide
theorem basicOfIri_iri (b : Basic) : basicOfIri b.iri = some b := by cases b <;> decide +kernel
theorem name_no_colon (b : Basic) : ':' ∉ b.name ∧ '-' ∉ b.name := by cases b <;> decide

/-- A text with a colon is no basic datatype. -/
theorem basicOf_colon {t : Text} (h : ':' ∈ t) : basicOf t = none := basicOf_none (fun b hb => (name_no_colon b).1 (hb ▸ h))

theorem basicOf_digits {n : Text} (h : Digits isDig n) : basicOf n = none := by
  apply basicOf_none
  intro b hb
  cases n with
  | nil => exact h.1 rfl
  | cons c n =>
    have hc := h.2 c List.mem_cons_self
    cases b <;> (simp only [Basic.name] at hb; injection hb with h1 _; subst h1; revert hc; decide)

/-- A text that starts with the given prefix and is none of the basic IRIs. -/
theorem basicOfIri_cuba (t : Text) : basicOfIri (dtPrefix ++ t) = none := by
  unfold basicOfIri
  rw [List.find?_eq_none]
  intro b _
  simp only [beq_iff_eq]
  intro h
  have h1 : b.iri.take 12 = dtPrefix.take 12 := by rw [h, List.take_append_of_le_length (by decide +kernel)]
  revert h1
  cases b <;> decide +kernel

theorem strIri (t : Text) : getPython (some (strPrefix ++ t)) = match pyInt t with
    | some i => .ok (.maxStr i)
    | none => .error .valueError := by
  have h0 : basicOfIri (strPrefix ++ t) = none := by rw [strPrefix, List.append_assoc]; exact basicOfIri_cuba _
  have h1 : strPrefix.isPrefixOf (strPrefix ++ t) = true := by rw [List.isPrefixOf_iff_prefix]; exact List.prefix_append _ _
  simp only [getPython, h0, h1, if_true, List.drop_left]

theorem str_vec (t : Text) : strPrefix.isPrefixOf (vecPrefix ++ t) = false := by
  rw [Bool.eq_false_iff]
  intro h
  rw [List.isPrefixOf_iff_prefix] at h
  obtain ⟨u, hu⟩ := h
  have h1 := congrArg (List.take 41) hu
  rw [List.take_append_of_le_length (by decide +kernel), List.take_append_of_le_length (by decide +kernel)] at h1
  revert h1
  decide +kernel

theorem prefix_lengths : strPrefix.length = vecPrefix.length := by decide +kernel

theorem vecIri (t : Text) : getPython (some (vecPrefix ++ t)) = match vectorArgs (splitOn '-' t) with
    | .ok (b, shape) => .ok (.vector b shape)
    | .error e => .error e := by
  have h0 : basicOfIri (vecPrefix ++ t) = none := by rw [vecPrefix, List.append_assoc]; exact basicOfIri_cuba _
  have h1 : vecPrefix.isPrefixOf (vecPrefix ++ t) = true := by rw [List.isPrefixOf_iff_prefix]; exact List.prefix_append _ _
  simp only [getPython, h0, h1, str_vec, if_true, Bool.false_eq_true, if_false, prefix_lengths, List.drop_left]

theorem vectorIri_back (b : Basic) (ns : List Text) (hne : ns ≠ []) : getPython (some (vectorIri b (ns.map value))) = .ok (.vector b (ns.map value)) := by
  have hne' : (ns.map value).map intStr ≠ [] := by cases ns with
    | nil => exact absurd rfl hne
    | cons _ _ => simp
  have hno : ∀ x ∈ (ns.map value).map intStr, '-' ∉ x := by
    intro x hx
    simp only [List.map_map, List.mem_map, Function.comp_apply] at hx
    obtain ⟨n, _, rfl⟩ := hx
    rw [intStr_value]
    intro hm
    have := isDigit_ne (dec_digits _ _ hm)
    exact this.2.1 rfl
  rw [vectorIri, List.append_assoc, List.append_assoc, vecIri, List.singleton_append, splitOn_append _ _ _ (name_no_colon b).2, splitOn_joinWith _ _ hne' hno]
  simp only [vectorArgs, basicOf_name, ints_intStr]

/-- C66: a datatype that means something gets an IRI, and the IRI gives back its meaning: the same basic type, the same maximal length, the same elements and shape. -/
theorem datatype_roundtrip {t : Text} {c : Conv} (h : Meaning t c) : ∃ iri, getRdflib t = .ok (some iri) ∧ getPython (some iri) = .ok c := by
  cases h with
  | basic b =>
    refine ⟨b.iri, ?_, ?_⟩
    · unfold getRdflib; rw [basicOf_name]
    · simp only [getPython, basicOfIri_iri]
  | @string n hn =>
    have h0 : basicOf ("STRING:".toList ++ n) = none := basicOf_colon (List.mem_append.2 (Or.inl (by decide)))
    have h1 : splitOn ':' ("STRING:".toList ++ n) = ["STRING".toList, n] := by
      have := split_sizes (a := "STRING".toList) (ns := [n]) (by decide) (fun m hm => by simp only [List.mem_cons, List.not_mem_nil, or_false] at hm; subst hm; exact hn)
      rw [← this]; simp [sizes]
    refine ⟨strPrefix ++ intStr (value n), ?_, ?_⟩
    · unfold getRdflib
      rw [h0, h1]
      simp only [show ¬ ("STRING".toList = "VECTOR".toList) from by decide, if_false, if_true, pyInt_digits hn]
    · rw [strIri, pyInt_intStr_value]
  | @floats ns hne hns =>
    obtain ⟨n, ns, rfl⟩ : ∃ n m, ns = n :: m := by cases ns with
      | nil => exact absurd rfl hne
      | cons n m => exact ⟨n, m, rfl⟩
    have h0 : basicOf ("VECTOR".toList ++ sizes (n :: ns)) = none := basicOf_colon (List.mem_append.2 (Or.inr (by rw [sizes_cons]; exact List.mem_cons_self)))
    refine ⟨vectorIri .float ((n :: ns).map value), ?_, vectorIri_back _ _ hne⟩
    unfold getRdflib
    rw [h0, split_sizes (by decide) hns]
    simp only [if_true, vectorArgs, basicOf_digits (hns n List.mem_cons_self), ints_digits hns]
  | @vector b ns hne hns =>
    have h1 : splitOn ':' ("VECTOR:".toList ++ b.name ++ sizes ns) = "VECTOR".toList :: b.name :: ns := by
      rw [← split_sizes (name_no_colon b).1 hns, ← splitOn_append ':' "VECTOR".toList _ (by decide)]
      rfl
    have h0 : basicOf ("VECTOR:".toList ++ b.name ++ sizes ns) = none := basicOf_colon (by rw [List.append_assoc]; exact List.mem_append.2 (Or.inl (by decide)))
    refine ⟨vectorIri b (ns.map value), ?_, vectorIri_back _ _ hne⟩
    unfold getRdflib
    rw [h0, h1]
    simp only [if_true, vectorArgs, basicOf_name, ints_digits hns]

theorem datatypes_cases {base : Text} (h : base ∈ datatypes) : (∃ b : Basic, base = b.name ∧ b ≠ .uuid) ∨ base = "VECTOR".toList := by
  simp only [datatypes, List.mem_cons, List.not_mem_nil, or_false] at h
  rcases h with rfl | rfl | rfl | rfl | rfl
  · exact Or.inl ⟨.bool, rfl, by decide⟩
  · exact Or.inl ⟨.int, rfl, by decide⟩
  · exact Or.inl ⟨.float, rfl, by decide⟩
  · exact Or.inl ⟨.string, rfl, by decide⟩
  · exact Or.inr rfl

/-- What becomes of the texts that the validator lets through as datatypes: they mean something, or the installation fails (`VECTOR` without sizes: IndexError; `VECTOR:VECTOR...`: ValueError; sizes behind
another datatype: no IRI, which the graph refuses), or every use of the attribute fails (`VECTOR:INT` without sizes: ValueError). -/
theorem datatype_accepted {t : Text} (h : IsDatatype isDig t) :
    (∃ c, Meaning t c) ∨ (t = "VECTOR".toList ∧ getRdflib t = .error .indexError) ∨ ((∃ u, t = "VECTOR:VECTOR".toList ++ u) ∧ getRdflib t = .error .valueError) ∨
    ((∃ (b : Basic) (ns : List Text), t = b.name ++ sizes ns ∧ ns ≠ []) ∧ getRdflib t = .ok none) ∨
    ((∃ b : Basic, t = "VECTOR:".toList ++ b.name) ∧ ∃ iri, getRdflib t = .ok (some iri) ∧ getPython (some iri) = .error .valueError) := by
  obtain ⟨pre, base, ns, rfl, hpre, hbase, hns⟩ := h
  change _ ∨ _
  have hs : (List.map (fun n => ':' :: n) ns).flatten = sizes ns := rfl
  rw [hs]
  rcases hpre with rfl | rfl
  · rw [List.nil_append]
    rcases datatypes_cases hbase with ⟨b, rfl, hb⟩ | rfl
    · cases ns with
      | nil => exact Or.inl ⟨_, by simpa [sizes] using Meaning.basic b⟩
      | cons n ns =>
        have h0 : basicOf (b.name ++ sizes (n :: ns)) = none := basicOf_colon (List.mem_append.2 (Or.inr (by rw [sizes_cons]; exact List.mem_cons_self)))
        by_cases hstr : b = .string ∧ ns = []
        · obtain ⟨rfl, rfl⟩ := hstr
          refine Or.inl ⟨.maxStr (value n), ?_⟩
          have := Meaning.string (hns n List.mem_cons_self)
          simpa [sizes, Basic.name] using this
        · refine Or.inr (Or.inr (Or.inr (Or.inl ⟨⟨b, _, rfl, by simp⟩, ?_⟩)))
          unfold getRdflib
          rw [h0, split_sizes (name_no_colon b).1 hns]
          simp only
          rw [if_neg (by cases b <;> decide)]
          split
          · rename_i hbs
            have : b = .string := by cases b <;> first | rfl | (exact absurd hbs (by decide))
            cases ns with
            | nil => exact absurd ⟨this, rfl⟩ hstr
            | cons m ns => rfl
          · rfl
    · cases ns with
      | nil => exact Or.inr (Or.inl ⟨by simp [sizes], by decide⟩)
      | cons n ns => exact Or.inl ⟨_, .floats (by simp) hns⟩
  · rcases datatypes_cases hbase with ⟨b, rfl, hb⟩ | rfl
    · cases ns with
      | nil =>
        refine Or.inr (Or.inr (Or.inr (Or.inr ⟨⟨b, by simp [sizes]⟩, vectorIri b [], ?_, ?_⟩)))
        · simp only [sizes, List.map_nil, List.flatten_nil, List.append_nil]
          cases b <;> decide +kernel
        · cases b <;> decide +kernel
      | cons n ns => exact Or.inl ⟨_, .vector (by simp) hns⟩
    · refine Or.inr (Or.inr (Or.inl ⟨⟨sizes ns, rfl⟩, ?_⟩))
      have h1 : splitOn ':' ("VECTOR:".toList ++ "VECTOR".toList ++ sizes ns) = "VECTOR".toList :: "VECTOR".toList :: ns := by
        rw [← split_sizes (a := "VECTOR".toList) (by decide) hns, ← splitOn_append ':' "VECTOR".toList _ (by decide)]
        rfl
      have h0 : basicOf ("VECTOR:".toList ++ "VECTOR".toList ++ sizes ns) = none := basicOf_colon (by rw [List.append_assoc]; exact List.mem_append.2 (Or.inl (by decide)))
      have h2 : pyInt "VECTOR".toList = none := by decide
      have h3 : basicOf "VECTOR".toList = none := by decide
      unfold getRdflib
      rw [h0, h1]
      simp only [if_true, vectorArgs, h3, ints, h2]

/-- The meaning is unique. -/
theorem meaning_unique {t : Text} {c d : Conv} (hc : Meaning t c) (hd : Meaning t d) : c = d := by
  obtain ⟨i, h1, h2⟩ := datatype_roundtrip hc
  obtain ⟨j, h3, h4⟩ := datatype_roundtrip hd
  rw [h1] at h3
  cases h3
  rw [h2] at h4
  cases h4
  rfl

/-- Different meanings have different IRIs. -/
theorem datatype_iri_injective {t u iri : Text} {c d : Conv} (hc : Meaning t c) (hd : Meaning u d) (h1 : getRdflib t = .ok (some iri)) (h2 : getRdflib u = .ok (some iri)) : c = d := by
  obtain ⟨i, h3, h4⟩ := datatype_roundtrip hc
  obtain ⟨j, h5, h6⟩ := datatype_roundtrip hd
  rw [h1] at h3; cases h3
  rw [h2] at h5; cases h5
  rw [h4] at h6; cases h6
  rfl

/-- Values of an attribute with a maximal length are kept if they are short enough, and refused otherwise. -/
theorem max_length_enforced (n : Int) (x : Text) (hn : 0 < n) : toString n x = if (x.length : Int) ≤ n then some x else none := by
  unfold toString
  split
  · rename_i h; rw [if_neg (by omega)]
  · rename_i h; rw [if_pos (by omega)]

/-- Finding: a maximal length of zero is no limit. -/
theorem zero_length_no_limit (x : Text) : toString 0 x = some x := by simp [toString]

/-- Finding: leading zeros make no difference, two texts can have the same IRI. -/
theorem leading_zeros : getRdflib "STRING:007".toList = getRdflib "STRING:7".toList := by decide +kernel

example : Meaning "VECTOR:INT:2:3".toList (.vector .int [2, 3]) :=
  Meaning.vector (b := .int) (ns := ["2".toList, "3".toList]) (by simp) (by
    intro n hn
    simp only [List.mem_cons, List.not_mem_nil, or_false] at hn
    rcases hn with rfl | rfl <;> exact ⟨by decide, by decide⟩)

/-- A vector of vectors of integers: the hypotheses of the theorems are met. -/
theorem meaning_example : Meaning "VECTOR:INT:4:12".toList (.vector .int [4, 12]) ∧ getRdflib "VECTOR:INT:4:12".toList = .ok (some "http://www.osp-core.com/cuba#_datatypes/VECTOR-INT-4-12".toList) := by
  refine ⟨Meaning.vector (b := .int) (ns := ["4".toList, "12".toList]) (by decide) ?_, by decide +kernel⟩
  intro n hn
  simp only [List.mem_cons, List.not_mem_nil, or_false] at hn
  rcases hn with rfl | rfl <;> exact ⟨by decide, by decide⟩

end Osp.Yaml
