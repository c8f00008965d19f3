import Verif.Value.Spec
/-!
# Values of attributes: proofs (C90)
-/
namespace Osp.Value
open Osp.Yaml (Basic Conv getPython intStr basicOfIri)

variable {F : Type}

/-! ### numbers and texts -/

theorem digitVal_minus : digitVal '-' = none := by decide

theorem strip_minus {t : Text} (h : ∀ c ∈ t, IsDigit c) : strip ('-' :: t) = '-' :: t := by
  have sp : ∀ c ∈ ('-' :: t), isSpaceChar c = false := by
    intro c hc
    rcases List.mem_cons.1 hc with rfl | hc
    · decide
    · obtain ⟨n, hn, rfl⟩ := h c hc
      exact (digit_facts n hn).2.2.2.2.1
  unfold strip
  rw [dropWhile_none _ _ sp, dropWhile_none _ _ (fun c hc => sp c (List.mem_reverse.1 hc)), List.reverse_reverse]

/-- Reading the text of an integer gives the integer. -/
theorem pyInt_intStr (i : Int) : pyInt (intStr i) = some i := by
  unfold intStr
  split
  · rename_i h
    unfold pyInt
    rw [strip_minus (dec_digits _)]
    simp only []
    have hd := decDigits_digits (dec i.natAbs) false 0 (dec_digits _) (Or.inr (dec_ne_nil _))
    rw [hd, digitsValue_dec, Option.map_some]
    congr 1
    simp only [Int.ofNat_eq_natCast]
    omega
  · rename_i h
    rw [pyInt_dec]
    congr 1
    omega

theorem hexVal_lt {c : Char} {d : Nat} (h : Iri.hexVal c = some d) : d < 16 := by
  unfold Iri.hexVal at h
  split at h
  · rename_i h1
    cases h
    have h2 : c.toNat ≤ '9'.toNat := h1.2
    have : '9'.toNat = 57 := by decide
    omega
  · split at h
    · rename_i h1
      cases h
      have h2 : c.toNat ≤ 'f'.toNat := h1.2
      have : 'f'.toNat = 102 := by decide
      omega
    · split at h
      · rename_i h1
        cases h
        have h2 : c.toNat ≤ 'F'.toNat := h1.2
        have : 'F'.toNat = 70 := by decide
        omega
      · cases h

theorem step_lt {a d n p : Nat} (hd : d < 16) (hn : n < (16 * a + d + 1) * p) : n < (a + 1) * (16 * p) := by
  have h1 : (16 * a + d + 1) * p ≤ (16 * a + 16) * p := Nat.mul_le_mul_right _ (by omega)
  have h2 : (16 * a + 16) * p = (a + 1) * (16 * p) := by
    rw [show 16 * a + 16 = (a + 1) * 16 from by omega, Nat.mul_assoc]
  omega

theorem digits_lt (k : Nat) : ∀ (t : List Char) (s : Bool) (acc n : Nat), t.length ≤ k → Iri.digits t s acc = some n → n < (acc + 1) * 16 ^ t.length := by
  induction k with
  | zero =>
    intro t s acc n hk h
    match t, hk with
    | [], _ =>
      unfold Iri.digits at h
      split at h
      · cases h; simp
      · cases h
  | succ k ih =>
    intro t s acc n hk h
    have one : ∀ (c : Char) (t : List Char), t.length ≤ k → (Iri.hexVal c).bind (fun d => Iri.digits t true (16 * acc + d)) = some n →
        n < (acc + 1) * 16 ^ (t.length + 1) := by
      intro c t hk h
      cases hc : Iri.hexVal c with
      | none => rw [hc] at h; cases h
      | some d =>
        rw [hc, Option.bind_some] at h
        have := ih t true (16 * acc + d) n hk h
        rw [Nat.pow_succ, Nat.mul_comm (16 ^ t.length) 16]
        exact step_lt (hexVal_lt hc) this
    unfold Iri.digits at h
    split at h
    · split at h
      · cases h; simp
      · cases h
    · rename_i c t
      have h1 := one c t (by simp only [List.length_cons] at hk; omega) h
      refine Nat.lt_of_lt_of_le h1 (Nat.mul_le_mul_left _ (Nat.pow_le_pow_right (by omega) ?_))
      simp only [List.length_cons]; omega
    · rename_i c t _
      exact one c t (by simp only [List.length_cons] at hk; omega) h

theorem afterBase_lt {t : List Char} {n : Nat} (h : Iri.afterBase t = some n) : n < 16 ^ t.length := by
  unfold Iri.afterBase at h
  split at h
  · have := digits_lt _ _ _ _ _ (Nat.le_refl _) h
    refine Nat.lt_of_lt_of_le this ?_
    rw [Nat.zero_add, Nat.one_mul]
    exact Nat.pow_le_pow_right (by omega) (by simp only [List.length_cons]; omega)
  · have := digits_lt _ _ _ _ _ (Nat.le_refl _) h
    refine Nat.lt_of_lt_of_le this ?_
    rw [Nat.zero_add, Nat.one_mul]
    exact Nat.pow_le_pow_right (by omega) (by simp only [List.length_cons]; omega)
  · have := digits_lt _ _ _ _ _ (Nat.le_refl _) h
    rwa [Nat.zero_add, Nat.one_mul] at this

theorem length_dropWhile_le {α : Type} (p : α → Bool) : ∀ t : List α, (t.dropWhile p).length ≤ t.length := by
  intro t
  induction t with
  | nil => simp
  | cons a t ih =>
    rw [List.dropWhile_cons]
    split
    · simp only [List.length_cons]; omega
    · exact Nat.le_refl _

theorem stripSpace_length (t : List Char) : (Iri.stripSpace t).length ≤ t.length := by
  unfold Iri.stripSpace
  rw [List.length_reverse]
  refine Nat.le_trans (length_dropWhile_le _ _) ?_
  rw [List.length_reverse]
  exact length_dropWhile_le _ _

theorem pyIntHex_lt {t : List Char} {n : Nat} (h : Iri.pyIntHex t = some n) : n < 16 ^ t.length := by
  have hl := stripSpace_length t
  unfold Iri.pyIntHex at h
  split at h
  · rename_i u e
    rw [e, List.length_cons] at hl
    exact Nat.lt_of_lt_of_le (afterBase_lt h) (Nat.pow_le_pow_right (by omega) (by omega))
  · cases h
  · exact Nat.lt_of_lt_of_le (afterBase_lt h) (Nat.pow_le_pow_right (by omega) (by omega))

/-- Whatever text is accepted as a UUID, the result has 128 bits. -/
theorem parseUuid_lt {t : Text} {u : Nat} (h : Iri.parseUuid t = some u) : u < 2 ^ 128 := by
  unfold Iri.parseUuid at h
  simp only [] at h
  split at h
  · cases h
  · rename_i hl
    have := pyIntHex_lt h
    rw [Decidable.not_not.1 hl] at this
    exact this

theorem bigEndian_lt (b : List (Fin 256)) : bigEndian b < 256 ^ b.length := by
  have : ∀ (b : List (Fin 256)) (a : Nat), b.foldl (fun a n => 256 * a + n.val) a < (a + 1) * 256 ^ b.length := by
    intro b
    induction b with
    | nil => intro a; simp
    | cons n b ih =>
      intro a
      rw [List.foldl_cons, List.length_cons, Nat.pow_succ, Nat.mul_comm (256 ^ b.length) 256]
      have h1 := ih (256 * a + n.val)
      have h2 : (256 * a + n.val + 1) * 256 ^ b.length ≤ (256 * a + 256) * 256 ^ b.length := Nat.mul_le_mul_right _ (by have := n.isLt; omega)
      have h3 : (256 * a + 256) * 256 ^ b.length = (a + 1) * (256 * 256 ^ b.length) := by
        rw [show 256 * a + 256 = (a + 1) * 256 from by omega, Nat.mul_assoc]
      omega
  have h := this b 0
  rwa [Nat.zero_add, Nat.one_mul] at h

/-! ### datatypes -/

theorem basicOfIri_some {d : Text} {b : Basic} (h : basicOfIri d = some b) : d = b.iri := by
  have := List.find?_some h
  exact (beq_iff_eq.1 this).symm

theorem basicOfIri_none {d : Text} (h : basicOfIri d = none) (b : Basic) : d ≠ b.iri := by
  rintro rfl
  rw [Yaml.basicOfIri_iri] at h
  cases h

/-- Which datatypes have which conversion. -/
theorem getPython_basic {dt : Option Text} {b : Basic} (h : getPython dt = .ok (.basic b)) : dt = some b.iri ∨ (dt = none ∧ b = .string) := by
  unfold getPython at h
  split at h
  · cases h; exact Or.inr ⟨rfl, rfl⟩
  · split at h
    · rename_i b' hb
      cases h
      exact Or.inl (congrArg some (basicOfIri_some hb))
    · split at h
      · split at h <;> cases h
      · split at h
        · split at h <;> cases h
        · cases h

theorem getPython_maxStr {dt : Option Text} {n : Int} (h : getPython dt = .ok (.maxStr n)) : ∃ d, dt = some d ∧ basicOfIri d = none ∧ Yaml.strPrefix.isPrefixOf d = true := by
  unfold getPython at h
  split at h
  · cases h
  · rename_i d
    split at h
    · cases h
    · rename_i hb
      split at h
      · rename_i hp
        exact ⟨d, rfl, hb, hp⟩
      · split at h
        · split at h <;> cases h
        · cases h

/-! ### C90: conversion -/

theorem uuidOfInt_lt {i : Int} {u : Nat} (h : uuidOfInt i = .ok u) : u < 2 ^ 128 := by
  unfold uuidOfInt at h
  split at h
  · cases h; omega
  · cases h

theorem uuidOfText_lt {t : Text} {u : Nat} (h : uuidOfText t = .ok u) : u < 2 ^ 128 := by
  unfold uuidOfText at h
  split at h
  · rename_i v hv; cases h; exact parseUuid_lt hv
  · cases h

theorem toUuid_lt {x : Val F} (hx : Sound x) {u : Nat} (h : toUuid x = .ok u) : u < 2 ^ 128 := by
  unfold toUuid at h
  split at h
  · cases h; exact hx
  · exact uuidOfText_lt h
  · exact uuidOfText_lt h
  · exact uuidOfInt_lt h
  · exact uuidOfInt_lt h
  · split at h
    · rename_i b _ hl
      cases h
      have := bigEndian_lt b
      rw [hl] at this
      exact this
    · cases h
  · cases h

theorem map_ok {α β : Type} {g : α → β} {e : Except PyErr α} {y : β} (h : e.map g = .ok y) : ∃ x, e = .ok x ∧ y = g x := by
  cases e with
  | error _ => cases h
  | ok x => cases h; exact ⟨x, rfl, rfl⟩

theorem toStr_ok {fl : Fl F} {n : Int} {x : Val F} {t : Text} (h : toStr fl n x = .ok t) : t = pyStr fl x ∧ (n = 0 ∨ (t.length : Int) ≤ n) := by
  unfold toStr Yaml.toString at h
  split at h
  · rename_i t' ht
    split at ht
    · cases ht
    · rename_i hn
      cases ht; cases h
      refine ⟨rfl, ?_⟩
      by_cases h0 : n = 0
      · exact Or.inl h0
      · exact Or.inr (by have := fun hh => hn ⟨h0, hh⟩; omega)
  · cases h

/-- **C90.** Whatever a user passes, an accepted value has the type of the datatype. -/
theorem convert_typed (fl : Fl F) {dt : Option Text} {c : Conv} (hc : getPython dt = .ok c) {x : Val F} (hx : Sound x) {v : Atom F} (h : convertTo fl dt x = .ok v) : HasType c v := by
  unfold convertTo at h
  rw [hc] at h
  simp only [] at h
  unfold convTo at h
  split at h
  · cases h; exact .bool _
  · obtain ⟨i, _, rfl⟩ := map_ok h; exact .int _
  · obtain ⟨i, _, rfl⟩ := map_ok h; exact .float _
  · cases h; exact .string _
  · obtain ⟨i, hi, rfl⟩ := map_ok h; exact .uuid (toUuid_lt hx hi)
  · obtain ⟨t, ht, rfl⟩ := map_ok h; exact .maxStr (toStr_ok ht).2
  · cases h

theorem toStr_fits {fl : Fl F} {n : Int} {x : Val F} (h : n = 0 ∨ ((pyStr fl x).length : Int) ≤ n) : toStr fl n x = .ok (pyStr fl x) := by
  unfold toStr Yaml.toString
  rw [if_neg (by omega)]

/-- **C90.** A value of the datatype is kept as it is. -/
theorem convert_kept (fl : Fl F) {dt : Option Text} {c : Conv} (hc : getPython dt = .ok c) {v : Atom F} (h : HasType c v) : convertTo fl dt (.atom v) = .ok v := by
  unfold convertTo
  rw [hc]
  cases h with
  | bool b => rfl
  | int i => rfl
  | float f => rfl
  | string t => rfl
  | uuid hu => rfl
  | maxStr h => exact congrArg (Except.map Atom.str) (toStr_fits (x := .atom (.str _)) h)

/-- **C90.** Converting twice is converting once. -/
theorem convert_idem (fl : Fl F) {dt : Option Text} {x : Val F} (hx : Sound x) {v : Atom F} (h : convertTo fl dt x = .ok v) : convertTo fl dt (.atom v) = .ok v := by
  cases hc : getPython dt with
  | error e => unfold convertTo at h; rw [hc] at h; cases h
  | ok c => exact convert_kept fl hc (convert_typed fl hc hx h)

/-- **C90.** Going to the basic Python types and back loses nothing. -/
theorem convert_basic_and_back (fl : Fl F) {dt : Option Text} {c : Conv} (hc : getPython dt = .ok c) {v : Atom F} (h : HasType c v) :
    ∃ w, convertFrom fl dt (.atom v) = .ok w ∧ convertTo fl dt (.atom w) = .ok v := by
  unfold convertFrom convertTo
  rw [hc]
  cases h with
  | bool b => exact ⟨.bool b, rfl, rfl⟩
  | int i => exact ⟨.int i, rfl, rfl⟩
  | float f => exact ⟨.float f, rfl, rfl⟩
  | string t => exact ⟨.str t, rfl, rfl⟩
  | @uuid u hu =>
    refine ⟨.str (Iri.uuidStr u), rfl, ?_⟩
    simp only [convTo, toUuid, uuidOfText, Iri.parse_uuidStr u hu, Except.map]
  | @maxStr n t h => exact ⟨.str t, rfl, congrArg (Except.map Atom.str) (toStr_fits (x := .atom (.str _)) h)⟩

/-- **C90.** The text of a value is read as this value, for every datatype but BOOL. -/
theorem text_read (fl : Fl F) {dt : Option Text} {c : Conv} (hc : getPython dt = .ok c) (hb : c ≠ .basic .bool) {v : Atom F} (h : HasType c v) :
    convertTo fl dt (.atom (.str (atomStr fl v))) = .ok v := by
  unfold convertTo
  rw [hc]
  cases h with
  | bool b => exact absurd rfl hb
  | int i => simp only [convTo, toInt, intOfText, atomStr, pyInt_intStr, Except.map]
  | float f => simp only [convTo, toFloat, floatOfText, atomStr, fl.parse_repr, Except.map]
  | string t => rfl
  | @uuid u hu => simp only [convTo, toUuid, uuidOfText, atomStr, Iri.parse_uuidStr u hu, Except.map]
  | @maxStr n t h => exact congrArg (Except.map Atom.str) (toStr_fits (x := .atom (.str _)) h)

/-- **C90.** For BOOL it is not: every text but the empty one is true, also `"False"`. -/
theorem bool_text (fl : Fl F) (t : Text) : convertTo fl (some Basic.bool.iri) (.atom (.str t)) = .ok (.bool (!t.isEmpty)) := by
  unfold convertTo
  rw [show getPython (some Basic.bool.iri) = .ok (.basic .bool) from by decide +kernel]
  rfl

/-- **C90.** A text is accepted as an INT if and only if it is an integer for Python, and a text with a decimal point never is, although the number is accepted and truncated. -/
theorem int_text (fl : Fl F) (t : Text) (v : Atom F) : convertTo fl (some Basic.int.iri) (.atom (.str t)) = .ok v ↔ ∃ i, pyInt t = some i ∧ v = .int i := by
  unfold convertTo
  rw [show getPython (some Basic.int.iri) = .ok (.basic .int) from by decide +kernel]
  simp only [convTo, toInt, intOfText]
  cases pyInt t with
  | none => simp [Except.map]
  | some i =>
    simp only [Except.map, Option.some.injEq, Except.ok.injEq]
    constructor
    · rintro rfl; exact ⟨i, rfl, rfl⟩
    · rintro ⟨j, rfl, rfl⟩; rfl

/-- **C90.** A floating point number becomes an INT by cutting off the fraction, without a warning. -/
theorem int_float (fl : Fl F) (f : F) : convertTo fl (some Basic.int.iri) (.atom (.float f)) = (fl.trunc f).map .int := by
  unfold convertTo
  rw [show getPython (some Basic.int.iri) = .ok (.basic .int) from by decide +kernel]
  rfl

/-- **C90.** A number is accepted as a UUID if and only if it has 128 bits. -/
theorem uuid_int (fl : Fl F) (i : Int) (v : Atom F) : convertTo fl (some Basic.uuid.iri) (.atom (.int i)) = .ok v ↔ (0 ≤ i ∧ i < 2 ^ 128) ∧ v = .uuid i.toNat := by
  unfold convertTo
  rw [show getPython (some Basic.uuid.iri) = .ok (.basic .uuid) from by decide +kernel]
  simp only [convTo, toUuid, uuidOfInt]
  split
  · rename_i h
    simp only [Except.map, Except.ok.injEq, h, true_and]
    exact eq_comm
  · rename_i h
    constructor
    · intro he; cases he
    · intro he; exact absurd he.1 h

/-- **C90.** A bytes object is accepted as a UUID if and only if it has 16 bytes. -/
theorem uuid_bytes (fl : Fl F) (b : List (Fin 256)) (s : Text) (v : Atom F) : convertTo fl (some Basic.uuid.iri) (.bytes b s) = .ok v ↔ b.length = 16 ∧ v = .uuid (bigEndian b) := by
  unfold convertTo
  rw [show getPython (some Basic.uuid.iri) = .ok (.basic .uuid) from by decide +kernel]
  simp only [convTo, toUuid]
  split
  · rename_i h
    simp only [Except.map, Except.ok.injEq, h, true_and]
    exact eq_comm
  · rename_i h
    simp [Except.map, h]

/-- **C90.** A value is accepted as a text of limited length if and only if its text is short enough; it is never cut. -/
theorem string_limit (fl : Fl F) {dt : Option Text} {n : Int} (hc : getPython dt = .ok (.maxStr n)) (x : Val F) (v : Atom F) :
    convertTo fl dt x = .ok v ↔ (n = 0 ∨ ((pyStr fl x).length : Int) ≤ n) ∧ v = .str (pyStr fl x) := by
  unfold convertTo
  rw [hc]
  simp only [convTo]
  constructor
  · intro h
    obtain ⟨t, ht, rfl⟩ := map_ok h
    have := toStr_ok ht
    rw [this.1] at this
    exact ⟨this.2, congrArg _ (toStr_ok ht).1⟩
  · rintro ⟨h, rfl⟩
    rw [toStr_fits h]
    rfl

/-- **C90.** `None` is accepted by BOOL (as False) and by the texts (as "None"), and refused by numbers and UUIDs. -/
theorem none_value (fl : Fl F) : convertTo fl (some Basic.bool.iri) .none = .ok (.bool false) ∧ convertTo fl (some Basic.string.iri) .none = .ok (.str "None".toList) ∧
    convertTo fl (some Basic.int.iri) .none = .error .typeError ∧ convertTo fl (some Basic.float.iri) .none = .error .typeError ∧ convertTo fl (some Basic.uuid.iri) .none = .error .valueError := by
  unfold convertTo
  rw [show getPython (some Basic.bool.iri) = .ok (.basic .bool) from by decide +kernel, show getPython (some Basic.string.iri) = .ok (.basic .string) from by decide +kernel,
    show getPython (some Basic.int.iri) = .ok (.basic .int) from by decide +kernel, show getPython (some Basic.float.iri) = .ok (.basic .float) from by decide +kernel,
    show getPython (some Basic.uuid.iri) = .ok (.basic .uuid) from by decide +kernel]
  exact ⟨rfl, rfl, rfl, rfl, rfl⟩

/-- **C90.** The uid of a new object: 128 bits and never zero. -/
theorem new_uid {x : Val F} (hx : Sound x) {u : Nat} (h : newUid x = .ok u) : 0 < u ∧ u < 2 ^ 128 := by
  unfold newUid at h
  split at h
  · cases h
  · rename_i w hw
    split at h
    · cases h
    · rename_i h0
      cases h
      exact ⟨by omega, toUuid_lt hx hw⟩

/-! ### literals -/

theorem cast_maxStr (fl : Fl F) {d : Text} (h : basicOfIri d = none) (t : Text) : cast fl (some d) t = none := by
  simp only [cast]
  rw [if_neg (basicOfIri_none h _), if_neg (basicOfIri_none h _), if_neg (basicOfIri_none h _), if_neg (basicOfIri_none h _)]

/-- The value rdflib knows: none for texts of limited length. Specification; nothing in /repo. -/
def known : Conv → Atom F → Option (Atom F)
  | .maxStr _, _ => none
  | _, v => some v

/-- The literal made of a value of the datatype. -/
theorem mkLit_typed (fl : Fl F) {dt : Option Text} {c : Conv} (hc : getPython dt = .ok c) {v : Atom F} (h : HasType c v) :
    mkLit fl dt v = ⟨lexical fl v, dt, known c v⟩ := by
  cases h with
  | bool b => rfl
  | int i => rfl
  | float f => rfl
  | string t =>
    have : cast fl dt t = some (.str t) := by
      rcases getPython_basic hc with rfl | ⟨rfl, _⟩
      · simp only [cast, if_true]
      · rfl
    simp only [mkLit, litOfText, this]
    rfl
  | uuid hu => rfl
  | @maxStr n t hn =>
    obtain ⟨d, rfl, hd, _⟩ := getPython_maxStr hc
    simp only [mkLit, litOfText, cast_maxStr fl hd]
    rfl

/-- What the user reads. -/
theorem seen (fl : Fl F) {dt : Option Text} {c : Conv} (hc : getPython dt = .ok c) {v : Atom F} (h : HasType c v) : Seen c v (toPython (mkLit fl dt v)) := by
  rw [mkLit_typed fl hc h]
  cases h with
  | bool b => exact rfl
  | int i => exact rfl
  | float f => exact rfl
  | string t => exact rfl
  | uuid hu => exact rfl
  | maxStr hn => exact ⟨_, rfl, rfl, rfl⟩

/-! ### C90: objects -/

/-- **C90.** Setting an attribute stores the converted value as the only one of the attribute, leaves the other attributes alone and tells the session. -/
theorem set_stores (fl : Fl F) {o : Obj F} {a : Attr} {c : Conv} (hc : getPython a.dt = .ok c) {x : Val F} (hx : Sound x) {r : Unit} {o' : Obj F} (h : setattr fl o a x = (.ok r, o')) :
    ∃ v, convertTo fl a.dt x = .ok v ∧ HasType c v ∧ Holds o' a (mkLit fl a.dt v) ∧ (∀ b l, b ≠ a.iri → ((b, l) ∈ o'.graph ↔ (b, l) ∈ o.graph)) ∧ o'.updates = o.updates + 1 := by
  unfold setattr at h
  simp only [] at h
  split at h
  · cases h
  · rename_i v hv
    injection h with h1 h2
    subst h2
    refine ⟨v, hv, convert_typed fl hc hx hv, ?_, ?_, rfl⟩
    · intro l'
      simp only [gset, List.mem_append, List.mem_filter, List.mem_singleton, Prod.mk.injEq, true_and, bne_self_eq_false, Bool.false_eq_true, and_false, false_or]
    · intro b l hb
      simp only [gset, List.mem_append, List.mem_filter, List.mem_singleton, Prod.mk.injEq, hb, false_and, or_false, bne_iff_ne, ne_eq, not_false_eq_true, and_true]

/-- **C90.** A refused value changes nothing, and the session is not told about an update. -/
theorem set_refused (fl : Fl F) {o : Obj F} {a : Attr} {x : Val F} {e : PyErr} {o' : Obj F} (h : setattr fl o a x = (.error e, o')) :
    convertTo fl a.dt x = .error e ∧ o'.graph = o.graph ∧ o'.updates = o.updates := by
  unfold setattr at h
  simp only [] at h
  split at h
  · rename_i e' he
    injection h with h1 h2
    cases h1
    subst h2
    exact ⟨he, rfl, rfl⟩
  · cases h

/-- **C90.** A value is refused exactly when it cannot be converted. -/
theorem set_refused_iff (fl : Fl F) (o : Obj F) (a : Attr) (x : Val F) (e : PyErr) : (setattr fl o a x).1 = .error e ↔ convertTo fl a.dt x = .error e := by
  unfold setattr
  simp only []
  split
  · rename_i e' he
    rw [he]
    simp only [Except.error.injEq]
  · rename_i v hv
    rw [hv]
    simp only [reduceCtorEq]

/-- What reading gives if the object holds exactly this literal. -/
theorem get_held {o : Obj F} {a : Attr} {l : Lit F} (h : Holds o a l) : (getattr o a).1 = .ok (toPython l) ∧ (getattr o a).2.graph = o.graph ∧ (getattr o a).2.updates = o.updates := by
  unfold getattr
  simp only []
  cases hf : o.graph.find? (fun x => x.1 == a.iri) with
  | none =>
    have := List.find?_eq_none.1 hf (a.iri, l) ((h l).2 rfl)
    simp at this
  | some p =>
    obtain ⟨p1, l'⟩ := p
    have h1 := List.find?_some hf
    simp only [beq_iff_eq] at h1
    subst h1
    have h2 := (h l').1 (List.mem_of_find?_eq_some hf)
    subst h2
    exact ⟨rfl, rfl, rfl⟩

/-- **C90.** Reading an attribute after setting it gives the converted value, of the type of the attribute. -/
theorem set_get (fl : Fl F) {o : Obj F} {a : Attr} {c : Conv} (hc : getPython a.dt = .ok c) {x : Val F} (hx : Sound x) {r : Unit} {o' : Obj F} (h : setattr fl o a x = (.ok r, o')) :
    ∃ v y, convertTo fl a.dt x = .ok v ∧ HasType c v ∧ (getattr o' a).1 = .ok y ∧ Seen c v y := by
  obtain ⟨v, hv, ht, hh, _⟩ := set_stores fl hc hx h
  exact ⟨v, _, hv, ht, (get_held hh).1, seen fl hc ht⟩

/-- **C90.** Setting an attribute to the value read from it changes nothing. -/
theorem set_what_was_read (fl : Fl F) {o : Obj F} {a : Attr} {c : Conv} (hc : getPython a.dt = .ok c) {v : Atom F} (hv : HasType c v) (hh : Holds o a (mkLit fl a.dt v)) {y : Val F}
    (hy : (getattr o a).1 = .ok y) : ∃ o', setattr fl o a y = (.ok (), o') ∧ Holds o' a (mkLit fl a.dt v) ∧ (∀ b l, b ≠ a.iri → ((b, l) ∈ o'.graph ↔ (b, l) ∈ o.graph)) := by
  rw [(get_held hh).1] at hy
  cases hy
  have hcv : convertTo fl a.dt (toPython (mkLit fl a.dt v)) = .ok v := by
    rw [mkLit_typed fl hc hv]
    cases hv with
    | bool b => exact convert_kept fl hc (.bool b)
    | int i => exact convert_kept fl hc (.int i)
    | float f => exact convert_kept fl hc (.float f)
    | string t => exact convert_kept fl hc (.string t)
    | uuid hu => exact convert_kept fl hc (.uuid hu)
    | @maxStr n t hn =>
      rw [string_limit fl hc]
      exact ⟨hn, rfl⟩
  have hset : setattr fl o a (toPython (mkLit fl a.dt v)) = (.ok (), { o with graph := gset o.graph a.iri (mkLit fl a.dt v), reads := o.reads + 1, updates := o.updates + 1 }) := by
    unfold setattr
    simp only [hcv]
  refine ⟨_, hset, ?_, ?_⟩
  · intro l'
    simp only [gset, List.mem_append, List.mem_filter, List.mem_singleton, Prod.mk.injEq, true_and, bne_self_eq_false, Bool.false_eq_true, and_false, false_or]
  · intro b l hb
    simp only [gset, List.mem_append, List.mem_filter, List.mem_singleton, Prod.mk.injEq, hb, false_and, or_false, bne_iff_ne, ne_eq, not_false_eq_true, and_true]

/-- **C90.** A new object holds exactly the converted values of its attributes, or is not made. -/
theorem new_object (fl : Fl F) {l : List (Attr × Val F)} {g : List (Text × Lit F)} (h : initAttrs fl l = .ok g) :
    ∀ p lit, (p, lit) ∈ g ↔ ∃ a x v, (a, x) ∈ l ∧ a.iri = p ∧ convertTo fl a.dt x = .ok v ∧ lit = mkLit fl a.dt v := by
  induction l generalizing g with
  | nil => cases h; simp
  | cons ax l ih =>
    obtain ⟨a, x⟩ := ax
    rw [initAttrs] at h
    split at h
    · cases h
    · rename_i v hv
      split at h
      · cases h
      · rename_i g' hg
        cases h
        intro p lit
        rw [List.mem_cons, ih hg p lit]
        constructor
        · rintro (he | ⟨a', x', v', hm, hp, hc, hl⟩)
          · injection he with h1 h2
            exact ⟨a, x, v, List.mem_cons_self, h1.symm, hv, h2⟩
          · exact ⟨a', x', v', List.mem_cons_of_mem _ hm, hp, hc, hl⟩
        · rintro ⟨a', x', v', hm, hp, hc, hl⟩
          rcases List.mem_cons.1 hm with he | hm
          · injection he with h1 h2
            subst h1 h2
            rw [hv] at hc
            cases hc
            exact Or.inl (by rw [← hp, hl])
          · exact Or.inr ⟨a', x', v', hm, hp, hc, hl⟩

/-- **C90.** The object is made if and only if every value can be converted. -/
theorem new_object_iff (fl : Fl F) (l : List (Attr × Val F)) : (∃ g, initAttrs fl l = .ok g) ↔ ∀ a x, (a, x) ∈ l → ∃ v, convertTo fl a.dt x = .ok v := by
  induction l with
  | nil => simp [initAttrs]
  | cons ax l ih =>
    obtain ⟨a, x⟩ := ax
    rw [initAttrs]
    constructor
    · rintro ⟨g, h⟩ a' x' hm
      split at h
      · cases h
      · rename_i v hv
        split at h
        · cases h
        · rename_i g' hg
          rcases List.mem_cons.1 hm with he | hm
          · injection he with h1 h2
            subst h1 h2
            exact ⟨v, hv⟩
          · exact ih.1 ⟨g', hg⟩ a' x' hm
    · intro h
      obtain ⟨v, hv⟩ := h a x List.mem_cons_self
      obtain ⟨g, hg⟩ := ih.2 (fun a' x' hm => h a' x' (List.mem_cons_of_mem _ hm))
      rw [hv, hg]
      exact ⟨_, rfl⟩

/-! ### C90: files and messages -/

theorem cast_bool (fl : Fl F) (t : Text) : cast fl (some Basic.bool.iri) t = some (.bool (t.map Char.toLower == "true".toList || t == "1".toList)) := by
  simp only [cast]
  rw [if_neg (by decide +kernel), if_pos True.intro]

theorem cast_int (fl : Fl F) (t : Text) : cast fl (some Basic.int.iri) t = (pyInt t).map .int := by
  simp only [cast]
  rw [if_neg (by decide +kernel), if_neg (by decide +kernel), if_pos True.intro]

theorem cast_float (fl : Fl F) (t : Text) : cast fl (some Basic.float.iri) t = (fl.parse t).map .float := by
  simp only [cast]
  rw [if_neg (by decide +kernel), if_neg (by decide +kernel), if_neg (by decide +kernel), if_pos True.intro]

theorem cast_uuid (fl : Fl F) (t : Text) : cast fl (some Basic.uuid.iri) t = none := by
  simp only [cast]
  rw [if_neg (by decide +kernel), if_neg (by decide +kernel), if_neg (by decide +kernel), if_neg (by decide +kernel)]

/-- **C90.** Values written in a file or a message are read as the same values. Partial: for UUIDs see `export_uuid`. -/
theorem export_same_partial (fl : Fl F) {dt : Option Text} {c : Conv} (hc : getPython dt = .ok c) (hu : c ≠ .basic .uuid) {v : Atom F} (h : HasType c v) :
    throughText fl (mkLit fl dt v) = mkLit fl dt v := by
  rw [mkLit_typed fl hc h]
  unfold throughText litOfText
  simp only []
  cases h with
  | bool b =>
    rcases getPython_basic hc with rfl | ⟨_, h⟩
    · rw [cast_bool]
      have hb : (List.map Char.toLower (lexical fl (.bool b)) == "true".toList || lexical fl (.bool b) == "1".toList) = b := by
        cases b
        · show (List.map Char.toLower "false".toList == "true".toList || "false".toList == "1".toList) = false
          decide +kernel
        · show (List.map Char.toLower "true".toList == "true".toList || "true".toList == "1".toList) = true
          decide +kernel
      rw [hb]
      rfl
    · cases h
  | int i =>
    rcases getPython_basic hc with rfl | ⟨_, h⟩
    · rw [cast_int, show lexical fl (.int i) = intStr i from rfl, pyInt_intStr]
      rfl
    · cases h
  | float f =>
    rcases getPython_basic hc with rfl | ⟨_, h⟩
    · rw [cast_float, show lexical fl (.float f) = fl.repr f from rfl, fl.parse_repr]
      rfl
    · cases h
  | string t =>
    rcases getPython_basic hc with rfl | ⟨rfl, _⟩
    · simp only [cast, if_true]
      rfl
    · rfl
  | uuid _ => exact absurd rfl hu
  | @maxStr n t hn =>
    obtain ⟨d, rfl, hd, _⟩ := getPython_maxStr hc
    rw [cast_maxStr fl hd]
    rfl

/-- **C90.** The literal of a UUID keeps its text but loses its value: the reader gets a text instead of a UUID. -/
theorem export_uuid (fl : Fl F) (u : Nat) : throughText fl (mkLit fl (some Basic.uuid.iri) (.uuid u)) = ⟨Iri.uuidStr u, some Basic.uuid.iri, none⟩ ∧
    toPython (mkLit fl (some Basic.uuid.iri) (.uuid u)) = .atom (.uuid u) := by
  refine ⟨?_, rfl⟩
  unfold throughText litOfText
  rw [show (mkLit fl (some Basic.uuid.iri) (.uuid u)).dt = some Basic.uuid.iri from rfl, cast_uuid]
  rfl

/-! ### C90: sqlite -/

theorem column_xsd {d : Text} (h : Sql.xsdIri.isPrefixOf d = true) : column (some d) = .ok d := by
  unfold column Sql.dataTableName
  simp only [Option.getD_some, h, if_true]

theorem column_bool : column (some Basic.bool.iri) = .ok Basic.bool.iri := by decide +kernel
theorem column_int : column (some Basic.int.iri) = .ok Basic.int.iri := by decide +kernel
theorem column_float : column (some Basic.float.iri) = .ok Basic.float.iri := by decide +kernel
theorem column_string : column (some Basic.string.iri) = .ok Basic.string.iri := by decide +kernel
theorem column_none : column none = .ok Basic.string.iri := by decide +kernel
theorem column_uuid : column (some Basic.uuid.iri) = .error .notImplementedError := by decide +kernel

theorem column_maxStr {d : Text} (hp : Yaml.strPrefix.isPrefixOf d = true) : column (some d) = .ok d := by
  obtain ⟨r, rfl⟩ := List.isPrefixOf_iff_prefix.1 hp
  have e : Yaml.strPrefix ++ r = Sql.cubaIri ++ (Sql.dtPart ++ ("STRING-".toList ++ r)) := by
    rw [← List.append_assoc, ← List.append_assoc, show Sql.cubaIri ++ Sql.dtPart ++ "STRING-".toList = Yaml.strPrefix from by decide +kernel]
  unfold column
  simp only [Option.getD_some]
  rw [e, Sql.table_cuba]

theorem sqlite_maxStr {d : Text} (hp : Yaml.strPrefix.isPrefixOf d = true) (hb : basicOfIri d = none) : Sql.sqliteType (some d) = .ok .text := by
  unfold Sql.sqliteType
  simp only []
  rw [if_neg (show d ≠ "UUID".toList from basicOfIri_none hb .uuid), if_neg (fun h => basicOfIri_none hb .int (h.trans (by decide +kernel))), if_neg (fun h => basicOfIri_none hb .bool (h.trans (by decide +kernel))),
    if_neg (fun h => basicOfIri_none hb .float (h.trans (by decide +kernel))), if_neg (fun h => basicOfIri_none hb .string (h.trans (by decide +kernel))),
    if_pos (by rw [show Sql.cubaIri ++ Sql.stringPart = Yaml.strPrefix from by decide +kernel]; exact hp)]

theorem py_bool : getPython (some Basic.bool.iri) = .ok (.basic .bool) := by decide +kernel
theorem py_int : getPython (some Basic.int.iri) = .ok (.basic .int) := by decide +kernel
theorem py_float : getPython (some Basic.float.iri) = .ok (.basic .float) := by decide +kernel
theorem py_string : getPython (some Basic.string.iri) = .ok (.basic .string) := by decide +kernel
theorem py_uuid : getPython (some Basic.uuid.iri) = .ok (.basic .uuid) := by decide +kernel

/-- **C90.** A BOOL survives the database. -/
theorem sqlite_bool (fl : Fl F) (b : Bool) : throughSqlite fl (mkLit fl (some Basic.bool.iri) (.bool b)) = .ok (mkLit fl (some Basic.bool.iri) (.bool b)) := by
  unfold throughSqlite
  rw [show (mkLit fl (some Basic.bool.iri) (.bool b)).dt = some Basic.bool.iri from rfl, column_bool]
  simp only [convertFrom, convertTo, py_bool, show Sql.sqliteType (some Basic.bool.iri) = .ok .numeric from by decide +kernel]
  cases b <;> rfl

/-- **C90.** An INT of 64 bits survives the database, a larger one makes the commit fail. -/
theorem sqlite_int (fl : Fl F) (i : Int) : throughSqlite fl (mkLit fl (some Basic.int.iri) (.int i)) =
    if - 2 ^ 63 ≤ i ∧ i < 2 ^ 63 then .ok (mkLit fl (some Basic.int.iri) (.int i)) else .error .overflowError := by
  unfold throughSqlite
  rw [show (mkLit fl (some Basic.int.iri) (.int i)).dt = some Basic.int.iri from rfl, column_int]
  simp only [convertFrom, convertTo, py_int, show Sql.sqliteType (some Basic.int.iri) = .ok .integer from by decide +kernel]
  simp only [convFrom, mkLit, toPython, toInt, Except.map, store]
  by_cases h : - 2 ^ 63 ≤ i ∧ i < 2 ^ 63
  · rw [if_pos h, if_pos h]; rfl
  · rw [if_neg h, if_neg h]

/-- **C90.** A FLOAT survives the database if sqlite keeps it; a number sqlite stores as NULL (nan) makes loading fail. -/
theorem sqlite_float (fl : Fl F) (f : F) : throughSqlite fl (mkLit fl (some Basic.float.iri) (.float f)) = match fl.real f with
    | some g => .ok (mkLit fl (some Basic.float.iri) (.float g))
    | none => .error .typeError := by
  unfold throughSqlite
  rw [show (mkLit fl (some Basic.float.iri) (.float f)).dt = some Basic.float.iri from rfl, column_float]
  simp only [convertFrom, convertTo, py_float, show Sql.sqliteType (some Basic.float.iri) = .ok .real from by decide +kernel]
  simp only [convFrom, mkLit, toPython, toFloat, Except.map, store]
  cases fl.real f <;> rfl

/-- **C90.** A text of limited length survives the database. -/
theorem sqlite_limited (fl : Fl F) {dt : Option Text} {n : Int} (hc : getPython dt = .ok (.maxStr n)) {t : Text} (h : HasType (F := F) (.maxStr n) (.str t)) :
    throughSqlite fl (mkLit fl dt (.str t)) = .ok (mkLit fl dt (.str t)) := by
  have hm := mkLit_typed fl hc h
  obtain ⟨d, rfl, hb, hp⟩ := getPython_maxStr hc
  cases h with
  | maxStr hn =>
    rw [hm]
    unfold throughSqlite
    simp only []
    rw [column_maxStr hp]
    simp only [convertFrom, hc, convFrom, toPython, known, pyStr, lexical, atomStr, sqlite_maxStr hp hb, store, fetch]
    rw [(string_limit fl hc (.atom (.str _)) (.str _)).2 ⟨hn, rfl⟩]
    simp only [hm, known, lexical, atomStr, pyStr]

/-- **C90.** A text without limit survives the database if it does not look like a number; otherwise it comes back as the text of the number. An untyped text comes back with the
datatype of texts. -/
theorem sqlite_text (fl : Fl F) (t : Text) {dt : Option Text} (hd : dt = none ∨ dt = some Basic.string.iri) : throughSqlite fl (mkLit fl dt (.str t)) =
    .ok (mkLit fl (some Basic.string.iri) (.str (if Sql.numLiteral t then match fl.parse t with | some f => fl.repr f | none => t else t))) := by
  have e : column (mkLit fl dt (.str t)).dt = .ok Basic.string.iri ∧ toPython (mkLit fl dt (.str t)) = .atom (.str t) := by
    rcases hd with rfl | rfl
    · exact ⟨column_none, rfl⟩
    · have := mkLit_typed fl py_string (HasType.string t)
      rw [this]
      exact ⟨column_string, rfl⟩
  unfold throughSqlite
  rw [e.1, e.2]
  simp only [convertFrom, convertTo, py_string, show Sql.sqliteType (some Basic.string.iri) = .ok .real from by decide +kernel, convFrom, pyStr, atomStr, store]
  by_cases hl : Sql.numLiteral t = true
  · rw [if_pos hl, if_pos hl]
    cases fl.parse t <;> rfl
  · rw [if_neg hl, if_neg hl]
    rfl

/-- **C90.** A UUID cannot be committed at all. -/
theorem sqlite_uuid (fl : Fl F) (u : Nat) : throughSqlite fl (mkLit fl (some Basic.uuid.iri) (.uuid u)) = .error .notImplementedError := by
  unfold throughSqlite
  rw [show (mkLit fl (some Basic.uuid.iri) (.uuid u)).dt = some Basic.uuid.iri from rfl, column_uuid]

/-! ### C90: defaults -/

/-- **C90.** A default of the ontology, which is a literal, has the effect of its value if the value has the type of the attribute. -/
theorem default_same (fl : Fl F) {dt : Option Text} {c : Conv} (hc : getPython dt = .ok c) {v : Atom F} (h : HasType c v) (dt' : Option Text) (hs : ∀ t, v = .str t → dt' = none) :
    convertTo fl dt (.lit (mkLit fl dt' v)) = convertTo fl dt (.atom v) := by
  rw [convert_kept fl hc h]
  unfold convertTo
  rw [hc]
  cases h with
  | bool b => rfl
  | int i => simp only [convTo, mkLit, toInt, lexical, intOfText, atomStr, pyInt_intStr, Except.map]
  | float f => simp only [convTo, mkLit, toFloat, lexical, floatOfText, atomStr, fl.parse_repr, Except.map]
  | string t => rw [hs t rfl]; rfl
  | @uuid u hu => simp only [convTo, mkLit, toUuid, lexical, uuidOfText, atomStr, Iri.parse_uuidStr u hu, Except.map]
  | @maxStr n t hn =>
    rw [hs t rfl]
    exact congrArg (Except.map Atom.str) (toStr_fits (x := .lit _) hn)

end Osp.Value
