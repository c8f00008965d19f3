import Verif.Common
/-!
# Texts: decimal numbers, splitting, prefixes and suffixes as in Python

Texts are lists of characters.
-/
namespace Osp

/-- Python itself; models nothing in /repo. -/
abbrev Text := List Char

/-- A decimal digit. Python itself; models nothing in /repo. -/
def digitChar (n : Nat) : Char := Char.ofNat (48 + n)

/-- `str(n)` for a natural number. Python itself; models nothing in /repo. -/
def dec (n : Nat) : Text := if _h : n < 10 then [digitChar n] else dec (n / 10) ++ [digitChar (n % 10)]
termination_by n
decreasing_by omega

/-- Value of an ASCII digit. Python itself; models nothing in /repo. -/
def digitVal (c : Char) : Option Nat := if '0' ≤ c ∧ c ≤ '9' then some (c.toNat - 48) else none

/-- Digits with single underscores between them, as `int(text)` accepts them. Python itself; models nothing in /repo. -/
def decDigits : Text → Bool → Nat → Option Nat
  | [], started, acc => if started then some acc else none
  | '_' :: c :: t, true, acc => (digitVal c).bind (fun d => decDigits t true (10 * acc + d))
  | c :: t, _, acc => (digitVal c).bind (fun d => decDigits t true (10 * acc + d))

/-- Python itself; models nothing in /repo. -/
def isSpaceChar (c : Char) : Bool := c = ' ' ∨ c = '\t' ∨ c = '\n' ∨ c = '\r' ∨ c = Char.ofNat 11 ∨ c = Char.ofNat 12

/-- `text.strip()`. Python itself; models nothing in /repo. -/
def strip (t : Text) : Text := ((t.dropWhile isSpaceChar).reverse.dropWhile isSpaceChar).reverse

/-- `int(text)` (ASCII digits and ASCII white space only); `none` is the ValueError. Python itself; models nothing in /repo. -/
def pyInt (t : Text) : Option Int :=
  match strip t with
  | '+' :: t => (decDigits t false 0).map Int.ofNat
  | '-' :: t => (decDigits t false 0).map (fun n => - Int.ofNat n)
  | t => (decDigits t false 0).map Int.ofNat

/-- `text.split(c)`. Python itself; models nothing in /repo. -/
def splitOn (sep : Char) : Text → List Text
  | [] => [[]]
  | c :: t => if c = sep then [] :: splitOn sep t else match splitOn sep t with
    | [] => [[c]]
    | x :: xs => (c :: x) :: xs

/-- `sep.join(texts)`. Python itself; models nothing in /repo. -/
def joinWith (sep : Text) : List Text → Text
  | [] => []
  | [x] => x
  | x :: y :: xs => x ++ sep ++ joinWith sep (y :: xs)

/-- `text.endswith(suffix)`. Python itself; models nothing in /repo. -/
def endsWith (t s : Text) : Bool := s.reverse.isPrefixOf t.reverse

/-! ### facts -/

theorem digit_facts : ∀ n, n < 10 → digitVal (digitChar n) = some n ∧ digitChar n ≠ '_' ∧ digitChar n ≠ '-' ∧ digitChar n ≠ '+' ∧ isSpaceChar (digitChar n) = false ∧
    digitChar n ≠ ':' ∧ ¬ ('A' ≤ digitChar n) ∧ digitChar n ≠ '`' := by
  decide

/-- Proof device; nothing in /repo. -/
def IsDigit (c : Char) : Prop := ∃ n, n < 10 ∧ c = digitChar n

theorem dec_digits (n : Nat) : ∀ c ∈ dec n, IsDigit c := by
  induction n using Nat.strongRecOn with
  | _ n ih =>
    intro c hc
    rw [dec] at hc
    split at hc
    · rename_i h
      simp only [List.mem_cons, List.not_mem_nil, or_false] at hc
      exact ⟨n, h, hc⟩
    · rename_i h
      rcases List.mem_append.1 hc with h1 | h1
      · exact ih (n / 10) (by omega) c h1
      · simp only [List.mem_cons, List.not_mem_nil, or_false] at h1
        exact ⟨n % 10, Nat.mod_lt _ (by decide), h1⟩

theorem dec_ne_nil (n : Nat) : dec n ≠ [] := by
  rw [dec]
  split
  · simp
  · simp

theorem decDigits_step {n : Nat} (hn : n < 10) (t : Text) (s : Bool) (acc : Nat) : decDigits (digitChar n :: t) s acc = decDigits t true (10 * acc + n) := by
  have hf := digit_facts n hn
  have hne := hf.2.1
  have hv := hf.1
  generalize digitChar n = c at hne hv
  rw [decDigits.eq_def]
  split
  · rename_i h; cases h
  · rename_i h1; injection h1 with h1 _; exact absurd h1 hne
  · rename_i h1 _
    injection h1 with h1 h2
    subst h1 h2
    rw [hv]
    rfl

/-- Value of a list of digits. Proof device; nothing in /repo. -/
def digitsValue (t : Text) (acc : Nat) : Nat := t.foldl (fun a c => 10 * a + (digitVal c).getD 0) acc

theorem decDigits_digits : ∀ (t : Text) (s : Bool) (acc : Nat), (∀ c ∈ t, IsDigit c) → (s = true ∨ t ≠ []) → decDigits t s acc = some (digitsValue t acc) := by
  intro t
  induction t with
  | nil =>
    intro s acc _ h
    rcases h with rfl | h
    · rfl
    · exact absurd rfl h
  | cons c t ih =>
    intro s acc h _
    obtain ⟨n, hn, rfl⟩ := h c List.mem_cons_self
    rw [decDigits_step hn, ih true _ (fun c hc => h c (List.mem_cons_of_mem _ hc)) (Or.inl rfl)]
    simp [digitsValue, (digit_facts n hn).1]

theorem digitsValue_append (t u : Text) (acc : Nat) : digitsValue (t ++ u) acc = digitsValue u (digitsValue t acc) := by
  simp [digitsValue]

theorem digitsValue_dec (n : Nat) : digitsValue (dec n) 0 = n := by
  induction n using Nat.strongRecOn with
  | _ n ih =>
    rw [dec]
    split
    · rename_i h
      simp [digitsValue, (digit_facts n h).1]
    · rename_i h
      rw [digitsValue_append, ih (n / 10) (by omega)]
      have hm : n % 10 < 10 := Nat.mod_lt _ (by decide)
      simp only [digitsValue, List.foldl_cons, List.foldl_nil, (digit_facts _ hm).1, Option.getD_some]
      omega

theorem dec_injective {m n : Nat} (h : dec m = dec n) : m = n := by
  rw [← digitsValue_dec m, h, digitsValue_dec]

theorem dropWhile_none {α : Type} (p : α → Bool) (t : List α) (h : ∀ c ∈ t, p c = false) : t.dropWhile p = t := by
  cases t with
  | nil => rfl
  | cons c t => rw [List.dropWhile_cons, h c List.mem_cons_self]; rfl

theorem strip_digits {t : Text} (h : ∀ c ∈ t, IsDigit c) : strip t = t := by
  have hs : ∀ c ∈ t, isSpaceChar c = false := by
    intro c hc
    obtain ⟨n, hn, rfl⟩ := h c hc
    exact (digit_facts n hn).2.2.2.2.1
  unfold strip
  rw [dropWhile_none _ _ hs, dropWhile_none _ _ (fun c hc => hs c (List.mem_reverse.1 hc)), List.reverse_reverse]

/-- `int(str(n)) == n`. -/
theorem pyInt_dec (n : Nat) : pyInt (dec n) = some (n : Int) := by
  have hd := dec_digits n
  have hne := dec_ne_nil n
  have hv := decDigits_digits (dec n) false 0 hd (Or.inr hne)
  rw [digitsValue_dec] at hv
  unfold pyInt
  rw [strip_digits hd]
  generalize dec n = t at hd hne hv
  split
  · obtain ⟨k, hk, e⟩ := hd '+' List.mem_cons_self
    exact absurd e.symm (digit_facts k hk).2.2.2.1
  · obtain ⟨k, hk, e⟩ := hd '-' List.mem_cons_self
    exact absurd e.symm (digit_facts k hk).2.2.1
  · rw [hv]; rfl

theorem isDigit_ne {c : Char} (h : IsDigit c) : c ≠ '_' ∧ c ≠ '-' ∧ c ≠ ':' ∧ ¬ ('A' ≤ c) ∧ c ≠ '`' := by
  obtain ⟨n, hn, rfl⟩ := h
  have := digit_facts n hn
  exact ⟨this.2.1, this.2.2.1, this.2.2.2.2.2.1, this.2.2.2.2.2.2.1, this.2.2.2.2.2.2.2⟩

/-- Splitting a text without separators. -/
theorem splitOn_none (sep : Char) : ∀ t : Text, sep ∉ t → splitOn sep t = [t] := by
  intro t
  induction t with
  | nil => intro _; rfl
  | cons c t ih =>
    intro h
    unfold splitOn
    rw [if_neg (fun e : c = sep => h (e ▸ List.mem_cons_self)), ih (fun k => h (List.mem_cons_of_mem _ k))]

theorem splitOn_append (sep : Char) : ∀ (t u : Text), sep ∉ t → splitOn sep (t ++ sep :: u) = t :: splitOn sep u := by
  intro t
  induction t with
  | nil => intro u _; simp [splitOn]
  | cons c t ih =>
    intro u h
    rw [List.cons_append, splitOn, if_neg (fun e : c = sep => h (e ▸ List.mem_cons_self)), ih u (fun k => h (List.mem_cons_of_mem _ k))]

/-- `sep.join(xs).split(sep) == xs` for non-empty lists of texts without the separator. -/
theorem splitOn_joinWith (sep : Char) : ∀ xs : List Text, xs ≠ [] → (∀ x ∈ xs, sep ∉ x) → splitOn sep (joinWith [sep] xs) = xs := by
  intro xs
  induction xs with
  | nil => intro h _; exact absurd rfl h
  | cons x xs ih =>
    intro _ h
    cases xs with
    | nil => exact splitOn_none sep x (h x List.mem_cons_self)
    | cons y ys =>
      show splitOn sep (x ++ [sep] ++ joinWith [sep] (y :: ys)) = _
      rw [List.append_assoc, List.singleton_append, splitOn_append sep _ _ (h x List.mem_cons_self), ih (by simp) (fun z hz => h z (List.mem_cons_of_mem _ hz))]

theorem endsWith_iff (t s : Text) : endsWith t s = true ↔ ∃ u, t = u ++ s := by
  unfold endsWith
  rw [List.isPrefixOf_iff_prefix, List.reverse_prefix]
  exact ⟨fun ⟨u, h⟩ => ⟨u, h.symm⟩, fun ⟨u, h⟩ => ⟨u, h.symm⟩⟩

/-- A text that ends with a separator character and texts without it has only one such decomposition. -/
theorem sep_unique (sep : Char) : ∀ {a b x y : Text}, sep ∉ x → sep ∉ y → a ++ sep :: x = b ++ sep :: y → a = b ∧ x = y := by
  intro a
  induction a with
  | nil =>
    intro b x y hx hy h
    cases b with
    | nil => simp at h; exact ⟨rfl, h⟩
    | cons c b =>
      simp only [List.nil_append, List.cons_append, List.cons.injEq] at h
      exact absurd (h.2 ▸ List.mem_append_right _ List.mem_cons_self) hx
  | cons c a ih =>
    intro b x y hx hy h
    cases b with
    | nil =>
      simp only [List.nil_append, List.cons_append, List.cons.injEq] at h
      exact absurd (h.2 ▸ List.mem_append_right _ List.mem_cons_self) hy
    | cons d b =>
      simp only [List.cons_append, List.cons.injEq] at h
      obtain ⟨h1, h2⟩ := ih hx hy h.2
      exact ⟨by rw [h.1, h1], h2⟩

end Osp
