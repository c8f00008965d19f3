import Verif.Sql.Names
/-!
# Strings in sqlite columns (C50)
-/
namespace Osp.Sql

/-! ### model -/

/-- Column types, `_to_sqlite_datatype`, sqlite_session.py:220-247. -/
inductive Affinity | text | integer | numeric | real
deriving DecidableEq

/-- datatypes.py 219-237, `STRING-`. -/
def stringPart : Text := "_datatypes/STRING-".toList

/-- `_to_sqlite_datatype`, sqlite_session.py:220-247. sqlite gives a column declared BOOLEAN numeric affinity. -/
def sqliteType (dt : Option Text) : Except PyErr Affinity :=
  match dt with
  | none => .ok .text
  | some d =>
    if d = "UUID".toList then .ok .text
    else if d = xsdIri ++ "integer".toList then .ok .integer
    else if d = xsdIri ++ "boolean".toList then .ok .numeric
    else if d = xsdIri ++ "float".toList then .ok .real
    else if d = xsdIri ++ "string".toList then .ok .real
    else if (cubaIri ++ stringPart).isPrefixOf d then .ok .text
    else .error .notImplementedError

/-- sqlite; nothing in /repo. -/
def isDigitB (c : Char) : Bool := '0' ≤ c && c ≤ '9'

/-- An optional sign. sqlite; nothing in /repo. -/
def skipSign : Text → Text
  | '+' :: t => t
  | '-' :: t => t
  | t => t

/-- Rest of a decimal literal after the mantissa: an optional exponent, then only white space. sqlite; nothing in /repo. -/
def numEnd (t : Text) : Bool :=
  match t with
  | 'e' :: r => expo r
  | 'E' :: r => expo r
  | r => r.all isSpaceChar
where
  expo (r : Text) : Bool :=
    let r := skipSign r
    (match r with | c :: _ => isDigitB c | [] => false) && (r.dropWhile isDigitB).all isSpaceChar

/-- The decimal literals of sqlite (sqlite3AtoF): white space, sign, digits with at most one point, exponent, white space. sqlite; nothing in /repo. -/
def numLiteral (t : Text) : Bool :=
  let t := skipSign (t.dropWhile isSpaceChar)
  let a := t.takeWhile isDigitB
  match t.dropWhile isDigitB with
  | '.' :: r => (!a.isEmpty || !(r.takeWhile isDigitB).isEmpty) && numEnd (r.dropWhile isDigitB)
  | r => !a.isEmpty && numEnd r

/-- What sqlite keeps in a cell. sqlite; nothing in /repo. -/
inductive Cell (F : Type) where
  | text (t : Text)
  | num (f : F)

/-- Floating point numbers as far as needed: the value of a decimal literal and Python's `str`. sqlite and Python; nothing in /repo. -/
structure Floats (F : Type) where
  val : Text → F
  str : F → Text
  /-- `str(float(n))` for integers that are exactly representable and printed without exponent. -/
  str_dec : ∀ n, n < 10 ^ 15 → str (val (dec n)) = dec n ++ ".0".toList

/-- Storing a text in a column: columns that are not text columns convert texts that look like numbers. INTEGER and NUMERIC columns, which store an integer if
possible, only occur for integers and booleans and are not distinguished here. sqlite; nothing in /repo. -/
def storeText {F : Type} (fl : Floats F) (a : Affinity) (t : Text) : Cell F :=
  match a with
  | .text => .text t
  | _ => if numLiteral t then .num (fl.val t) else .text t

/-- `convert_to(value, XSD.string)`, i.e. `str(value)`, datatypes.py:12-30, applied to the selected rows in sql_util.py:448-464. -/
def readText {F : Type} (fl : Floats F) : Cell F → Text
  | .text t => t
  | .num f => fl.str f

/-- Writing a string attribute of the given datatype and reading it again. sqlite_session.py 78-90, 124-138, 220-258 with sql_util.py 447-467. -/
def roundtrip {F : Type} (fl : Floats F) (dt : Option Text) (t : Text) : Except PyErr Text :=
  match sqliteType dt with
  | .error e => .error e
  | .ok a => .ok (readText fl (storeText fl a t))

/-! ### C50 -/

/-- **C50.** For strings of limited length (`STRING-n`), UUIDs and untyped values: every text is read back unchanged. -/
theorem limited_string_roundtrip {F : Type} (fl : Floats F) (n : Nat) (t : Text) :
    roundtrip fl (some (cubaIri ++ dtPart ++ "STRING-".toList ++ dec n)) t = .ok t ∧ roundtrip fl (some "UUID".toList) t = .ok t ∧ roundtrip fl none t = .ok t := by
  refine ⟨?_, rfl, rfl⟩
  have e : cubaIri ++ dtPart ++ "STRING-".toList ++ dec n = (cubaIri ++ stringPart) ++ dec n := by
    have : dtPart ++ "STRING-".toList = stringPart := by decide +kernel
    rw [List.append_assoc cubaIri, this]
  have ne : ∀ {q : Text}, (q = "UUID".toList ∨ ∃ s, q = xsdIri ++ s) → (cubaIri ++ stringPart) ++ dec n ≠ q := by
    intro q hq h
    have h11 : ((cubaIri ++ stringPart) ++ dec n)[11]? = some 'o' := by
      rw [List.append_assoc, List.getElem?_append_left (by decide +kernel)]
      decide +kernel
    rcases hq with rfl | ⟨s, rfl⟩
    · rw [h] at h11; revert h11; decide +kernel
    · rw [h, List.getElem?_append_left (by decide +kernel)] at h11
      revert h11; decide +kernel
  rw [e]
  unfold roundtrip sqliteType
  simp only []
  rw [if_neg (ne (Or.inl rfl)), if_neg (ne (Or.inr ⟨_, rfl⟩)), if_neg (ne (Or.inr ⟨_, rfl⟩)), if_neg (ne (Or.inr ⟨_, rfl⟩)), if_neg (ne (Or.inr ⟨_, rfl⟩)),
    if_pos (isPrefixOf_append_self _ _)]
  rfl

theorem xsd_string_real : sqliteType (some (xsdIri ++ "string".toList)) = .ok .real := by decide +kernel

/-- **C50.** Strings of unlimited length: texts that do not look like a number are read back unchanged. Partial: the others are not, see `numeric_string_changed`. -/
theorem string_roundtrip_partial {F : Type} (fl : Floats F) (t : Text) (h : numLiteral t = false) : roundtrip fl (some (xsdIri ++ "string".toList)) t = .ok t := by
  unfold roundtrip
  rw [xsd_string_real]
  simp [storeText, h, readText]

/-- **C50.** What is read back from an `xsd:string` column, exactly, for every text. -/
theorem string_roundtrip_exact {F : Type} (fl : Floats F) (t : Text) :
    roundtrip fl (some (xsdIri ++ "string".toList)) t = .ok (if numLiteral t = true then fl.str (fl.val t) else t) := by
  unfold roundtrip
  rw [xsd_string_real]
  cases h : numLiteral t <;> simp [storeText, h, readText]

/-- **C50.** A text in an `xsd:string` column is read back unchanged if and only if it does not look like a number or is exactly Python's text of that number. -/
theorem string_roundtrip_iff {F : Type} (fl : Floats F) (t : Text) :
    roundtrip fl (some (xsdIri ++ "string".toList)) t = .ok t ↔ (numLiteral t = false ∨ fl.str (fl.val t) = t) := by
  rw [string_roundtrip_exact]
  cases h : numLiteral t <;> simp

/-- Characters of decimal literals. Proof device; nothing in /repo. -/
def numChar (c : Char) : Bool := isDigitB c || isSpaceChar c || c == '+' || c == '-' || c == '.' || c == 'e' || c == 'E'

theorem mem_takeWhile_or_dropWhile {p : Char → Bool} {t : Text} {c : Char} (h : c ∈ t) : p c = true ∨ c ∈ t.dropWhile p := by
  induction t with
  | nil => cases h
  | cons d t ih =>
    rw [List.dropWhile_cons]
    split
    · rename_i hd
      rcases List.mem_cons.1 h with h | h
      · subst h; exact Or.inl hd
      · exact ih h
    · exact Or.inr h

theorem mem_skipSign {t : Text} {c : Char} (h : c ∈ t) : c = '+' ∨ c = '-' ∨ c ∈ skipSign t := by
  unfold skipSign
  split
  · rcases List.mem_cons.1 h with h | h
    · exact Or.inl h
    · exact Or.inr (Or.inr h)
  · rcases List.mem_cons.1 h with h | h
    · exact Or.inr (Or.inl h)
    · exact Or.inr (Or.inr h)
  · exact Or.inr (Or.inr h)

theorem numChar_digit {c : Char} (h : isDigitB c = true) : numChar c = true := by simp [numChar, h]
theorem numChar_space {c : Char} (h : isSpaceChar c = true) : numChar c = true := by simp [numChar, h]

theorem expo_chars {t : Text} (h : numEnd.expo t = true) : ∀ c ∈ t, numChar c = true := by
  intro c hc
  simp only [numEnd.expo, Bool.and_eq_true, List.all_eq_true] at h
  rcases mem_skipSign hc with rfl | rfl | hc
  · decide
  · decide
  · rcases mem_takeWhile_or_dropWhile (p := isDigitB) hc with hc | hc
    · exact numChar_digit hc
    · exact numChar_space (h.2 c hc)

theorem numEnd_chars {t : Text} (h : numEnd t = true) : ∀ c ∈ t, numChar c = true := by
  intro c hc
  unfold numEnd at h
  split at h
  · rcases List.mem_cons.1 hc with rfl | hc
    · decide
    · exact expo_chars h c hc
  · rcases List.mem_cons.1 hc with rfl | hc
    · decide
    · exact expo_chars h c hc
  · exact numChar_space (List.all_eq_true.1 h c hc)

theorem numLiteral_chars {t : Text} (h : numLiteral t = true) : ∀ c ∈ t, numChar c = true := by
  intro c hc
  rcases mem_takeWhile_or_dropWhile (p := isSpaceChar) hc with hc | hc
  · exact numChar_space hc
  rcases mem_skipSign hc with rfl | rfl | hc
  · decide
  · decide
  rcases mem_takeWhile_or_dropWhile (p := isDigitB) hc with hc | hc
  · exact numChar_digit hc
  unfold numLiteral at h
  simp only at h
  split at h
  · rename_i r hr
    rw [hr] at hc
    rw [Bool.and_eq_true] at h
    rcases List.mem_cons.1 hc with rfl | hc
    · decide
    · rcases mem_takeWhile_or_dropWhile (p := isDigitB) hc with hc | hc
      · exact numChar_digit hc
      · exact numEnd_chars h.2 c hc
  · rw [Bool.and_eq_true] at h
    exact numEnd_chars h.2 c hc

/-- **C50.** In particular every text with a character that does not occur in numbers is read back unchanged, for instance every text with a letter other than e and E. -/
theorem text_with_letter_roundtrip {F : Type} (fl : Floats F) (t : Text) (c : Char) (hc : c ∈ t) (hn : numChar c = false) :
    roundtrip fl (some (xsdIri ++ "string".toList)) t = .ok t := by
  apply string_roundtrip_partial
  cases h : numLiteral t with
  | false => rfl
  | true => rw [numLiteral_chars h c hc] at hn; cases hn

theorem isDigit_isDigitB {c : Char} (h : IsDigit c) : isDigitB c = true := by
  obtain ⟨n, hn, rfl⟩ := h
  have : ∀ n, n < 10 → isDigitB (digitChar n) = true := by decide
  exact this n hn

theorem dropWhile_all {p : Char → Bool} {t : Text} (h : ∀ c ∈ t, p c = true) : t.dropWhile p = [] := by
  induction t with
  | nil => rfl
  | cons c t ih => rw [List.dropWhile_cons, if_pos (h c List.mem_cons_self)]; exact ih (fun d hd => h d (List.mem_cons_of_mem _ hd))

theorem numLiteral_dec (n : Nat) : numLiteral (dec n) = true := by
  have hd := dec_digits n
  have hne := dec_ne_nil n
  generalize dec n = t at hd hne
  have h1 : t.dropWhile isSpaceChar = t := by
    apply dropWhile_none
    intro c hc
    obtain ⟨k, hk, rfl⟩ := hd c hc
    exact (digit_facts k hk).2.2.2.2.1
  have h2 : skipSign t = t := by
    unfold skipSign
    split
    · obtain ⟨k, hk, e⟩ := hd '+' List.mem_cons_self
      exact absurd e.symm (digit_facts k hk).2.2.2.1
    · obtain ⟨k, hk, e⟩ := hd '-' List.mem_cons_self
      exact absurd e.symm (digit_facts k hk).2.2.1
    · rfl
  unfold numLiteral
  simp only [h1, h2]
  rw [dropWhile_all (fun c hc => isDigit_isDigitB (hd c hc))]
  simp only [numEnd, List.all_nil, Bool.and_true]
  cases t with
  | nil => exact absurd rfl hne
  | cons c t => rw [List.takeWhile_cons, if_pos (isDigit_isDigitB (hd c List.mem_cons_self))]; rfl

/-- Finding: the string "5" comes back as "5.0": so does every string of digits below 10^15 written without leading zeros. -/
theorem numeric_string_changed {F : Type} (fl : Floats F) (n : Nat) (h : n < 10 ^ 15) :
    roundtrip fl (some (xsdIri ++ "string".toList)) (dec n) = .ok (dec n ++ ".0".toList) ∧ dec n ++ ".0".toList ≠ dec n := by
  constructor
  · unfold roundtrip
    rw [xsd_string_real]
    simp [storeText, numLiteral_dec, readText, fl.str_dec n h]
  · intro e
    have := congrArg List.length e
    simp at this

/-- The hypotheses on floating point numbers can be met, and the literals are recognised as sqlite does. -/
example : ∃ (F : Type), Nonempty (Floats F) := ⟨Text, ⟨⟨fun t => t ++ ".0".toList, id, fun _ _ => rfl⟩⟩⟩
example : numLiteral " 12 ".toList = true ∧ numLiteral "-1.5e+3".toList = true ∧ numLiteral ".5".toList = true ∧ numLiteral "1.".toList = true ∧
    numLiteral "1e".toList = false ∧ numLiteral ".".toList = false ∧ numLiteral "0x1".toList = false ∧ numLiteral "1 2".toList = false ∧ numLiteral "".toList = false ∧
    numLiteral "nan".toList = false := by
  decide +kernel

end Osp.Sql
