import Verif.Text
/-!
# Regular expressions, as far as the YAML validator uses them (C55)

Python's `re` engine is modelled by what a pattern means: `match` succeeds iff some text of the language of the pattern is at the place where it is looked for.
`accepts` computes membership with derivatives, and is proved to decide the language.
-/
namespace Osp.Yaml

/-- The operators that occur in the patterns of yml_validator.py. Modelling device: the language of a pattern. -/
inductive Re where
  | none
  | eps
  | cls (p : Char → Bool)
  | seq (r s : Re)
  | alt (r s : Re)
  | star (r : Re)

/-- The texts a pattern stands for. Specification; nothing in /repo. -/
inductive Lang : Re → Text → Prop where
  | eps : Lang .eps []
  | cls {p : Char → Bool} {c : Char} : p c = true → Lang (.cls p) [c]
  | seq {r s : Re} {t u : Text} : Lang r t → Lang s u → Lang (.seq r s) (t ++ u)
  | altl {r s : Re} {t : Text} : Lang r t → Lang (.alt r s) t
  | altr {r s : Re} {t : Text} : Lang s t → Lang (.alt r s) t
  | nil {r : Re} : Lang (.star r) []
  | more {r : Re} {t u : Text} : Lang r t → Lang (.star r) u → Lang (.star r) (t ++ u)

/-- Proof device; nothing in /repo. -/
def Re.nullable : Re → Bool
  | .none => false
  | .eps => true
  | .cls _ => false
  | .seq r s => r.nullable && s.nullable
  | .alt r s => r.nullable || s.nullable
  | .star _ => true

/-- Derivative with respect to a character. Proof device; nothing in /repo. -/
def Re.deriv (c : Char) : Re → Re
  | .none => .none
  | .eps => .none
  | .cls p => if p c then .eps else .none
  | .seq r s => if r.nullable then .alt (.seq (r.deriv c) s) (s.deriv c) else .seq (r.deriv c) s
  | .alt r s => .alt (r.deriv c) (s.deriv c)
  | .star r => .seq (r.deriv c) (.star r)

/-- Is the text one the pattern stands for? Proof device; nothing in /repo. -/
def Re.accepts : Re → Text → Bool
  | r, [] => r.nullable
  | r, c :: t => (r.deriv c).accepts t

theorem nullable_iff (r : Re) : r.nullable = true ↔ Lang r [] := by
  induction r with
  | none => simp only [Re.nullable]; exact ⟨fun h => (by cases h), fun h => (by cases h)⟩
  | eps => exact ⟨fun _ => .eps, fun _ => rfl⟩
  | cls p => simp only [Re.nullable]; exact ⟨fun h => (by cases h), fun h => (by generalize ht : ([] : Text) = t at h; cases h; cases ht)⟩
  | seq r s hr hs =>
    simp only [Re.nullable, Bool.and_eq_true, hr, hs]
    constructor
    · intro h
      have := Lang.seq h.1 h.2
      simpa using this
    · intro h
      generalize ht : ([] : Text) = t at h
      cases h with
      | seq h1 h2 =>
        obtain ⟨rfl, rfl⟩ := List.append_eq_nil_iff.1 ht.symm
        exact ⟨h1, h2⟩
  | alt r s hr hs =>
    simp only [Re.nullable, Bool.or_eq_true, hr, hs]
    constructor
    · rintro (h | h)
      · exact .altl h
      · exact .altr h
    · intro h
      cases h with
      | altl h => exact Or.inl h
      | altr h => exact Or.inr h
  | star r => exact ⟨fun _ => .nil, fun _ => rfl⟩

/-- A nonempty text of `r*` starts with a nonempty text of `r`. -/
theorem star_cons {r : Re} {c : Char} {t : Text} (h : Lang (.star r) (c :: t)) : ∃ a b, t = a ++ b ∧ Lang r (c :: a) ∧ Lang (.star r) b := by
  generalize hx : Re.star r = x at h
  generalize hy : c :: t = y at h
  induction h generalizing t with
  | nil => cases hy
  | @more r' t' u h1 h2 _ ih =>
    cases hx
    cases t' with
    | nil => exact ih rfl hy
    | cons d a =>
      simp only [List.cons_append, List.cons.injEq] at hy
      obtain ⟨rfl, rfl⟩ := hy
      exact ⟨a, u, rfl, h1, h2⟩
  | _ => cases hx

theorem deriv_iff (c : Char) (r : Re) : ∀ t, Lang (r.deriv c) t ↔ Lang r (c :: t) := by
  induction r with
  | none => intro t; exact ⟨fun h => (by cases h), fun h => (by cases h)⟩
  | eps => intro t; exact ⟨fun h => (by cases h), fun h => (by generalize hy : c :: t = y at h; cases h; cases hy)⟩
  | cls p =>
    intro t
    simp only [Re.deriv]
    split
    · rename_i hp
      constructor
      · intro h; cases h; exact .cls hp
      · intro h
        generalize hy : c :: t = y at h
        cases h
        cases hy
        exact .eps
    · rename_i hp
      constructor
      · intro h; cases h
      · intro h
        generalize hy : c :: t = y at h
        cases h with
        | cls h => cases hy; exact absurd h hp
  | seq r s hr hs =>
    intro t
    have main : Lang (.seq r s) (c :: t) ↔ Lang (.seq (r.deriv c) s) t ∨ (r.nullable = true ∧ Lang (s.deriv c) t) := by
      constructor
      · intro h
        generalize hy : c :: t = y at h
        cases h with
        | @seq _ _ a b h1 h2 =>
          cases a with
          | nil =>
            right
            simp only [List.nil_append] at hy
            subst hy
            exact ⟨(nullable_iff r).2 h1, (hs t).2 h2⟩
          | cons d a =>
            left
            simp only [List.cons_append, List.cons.injEq] at hy
            obtain ⟨rfl, rfl⟩ := hy
            exact .seq ((hr a).2 h1) h2
      · rintro (h | ⟨hn, h⟩)
        · generalize hy : t = y at h
          cases h with
          | seq h1 h2 => exact Lang.seq ((hr _).1 h1) h2
        · exact Lang.seq ((nullable_iff r).1 hn) ((hs t).1 h)
    rw [main]
    simp only [Re.deriv]
    split
    · rename_i hn
      constructor
      · intro h
        cases h with
        | altl h => exact Or.inl h
        | altr h => exact Or.inr ⟨hn, h⟩
      · rintro (h | ⟨_, h⟩)
        · exact .altl h
        · exact .altr h
    · rename_i hn
      exact ⟨Or.inl, fun h => h.elim id (fun h => absurd h.1 hn)⟩
  | alt r s hr hs =>
    intro t
    simp only [Re.deriv]
    constructor
    · intro h
      cases h with
      | altl h => exact .altl ((hr t).1 h)
      | altr h => exact .altr ((hs t).1 h)
    · intro h
      cases h with
      | altl h => exact .altl ((hr t).2 h)
      | altr h => exact .altr ((hs t).2 h)
  | star r hr =>
    intro t
    simp only [Re.deriv]
    constructor
    · intro h
      cases h with
      | seq h1 h2 => exact Lang.more ((hr _).1 h1) h2
    · intro h
      obtain ⟨a, b, rfl, h1, h2⟩ := star_cons h
      exact .seq ((hr a).2 h1) h2

/-- `accepts` decides the language of the pattern. -/
theorem accepts_iff (r : Re) (t : Text) : r.accepts t = true ↔ Lang r t := by
  induction t generalizing r with
  | nil => exact nullable_iff r
  | cons c t ih => rw [Re.accepts, ih, deriv_iff]

/-- A compiled pattern as it is used with `match`: `^L$`, or `L` without anchors. Python `re`; nothing in /repo. -/
inductive Rx where
  | whole (r : Re)
  | start (r : Re)

/-- Some prefix of the text is in the language. Proof device; nothing in /repo. -/
def Re.startsIn : Re → Text → Bool
  | r, [] => r.nullable
  | r, c :: t => r.nullable || (r.deriv c).startsIn t

/-- The text without its last character, if that is a line feed. Proof device; nothing in /repo. -/
def dropLF : Text → Option Text
  | [] => none
  | [c] => if c = '\n' then some [] else none
  | c :: t => (dropLF t).map (c :: ·)

/-- `pattern.match(text)`: `$` also matches before a line feed at the end. Python `re`; nothing in /repo. -/
def Rx.matches (x : Rx) (t : Text) : Bool :=
  match x with
  | .whole r => r.accepts t || (match dropLF t with
    | some u => r.accepts u
    | none => false)
  | .start r => r.startsIn t

/-- What `match` finds. Specification; nothing in /repo. -/
def Rx.Means : Rx → Text → Prop
  | .whole r, t => Lang r t ∨ ∃ u, t = u ++ ['\n'] ∧ Lang r u
  | .start r, t => ∃ u v, t = u ++ v ∧ Lang r u

theorem startsIn_iff (r : Re) (t : Text) : r.startsIn t = true ↔ ∃ u v, t = u ++ v ∧ Lang r u := by
  induction t generalizing r with
  | nil =>
    rw [Re.startsIn, nullable_iff]
    constructor
    · intro h; exact ⟨[], [], rfl, h⟩
    · rintro ⟨u, v, h, hl⟩
      obtain ⟨rfl, rfl⟩ := List.append_eq_nil_iff.1 h.symm
      exact hl
  | cons c t ih =>
    rw [Re.startsIn, Bool.or_eq_true, nullable_iff, ih]
    constructor
    · rintro (h | ⟨u, v, rfl, h⟩)
      · exact ⟨[], c :: t, rfl, h⟩
      · exact ⟨c :: u, v, rfl, (deriv_iff c r u).1 h⟩
    · rintro ⟨u, v, h, hl⟩
      cases u with
      | nil => exact Or.inl hl
      | cons d u =>
        simp only [List.cons_append, List.cons.injEq] at h
        obtain ⟨rfl, rfl⟩ := h
        exact Or.inr ⟨u, v, rfl, (deriv_iff c r u).2 hl⟩

theorem dropLF_iff (t u : Text) : dropLF t = some u ↔ t = u ++ ['\n'] := by
  induction t generalizing u with
  | nil => simp [dropLF]
  | cons c t ih =>
    cases t with
    | nil =>
      simp only [dropLF]
      split
      · rename_i h
        subst h
        cases u with
        | nil => simp
        | cons d u => simp
      · rename_i h
        simp only [false_iff, reduceCtorEq]
        intro h2
        cases u with
        | nil => simp only [List.nil_append, List.cons.injEq, and_true] at h2; exact h h2
        | cons d u => simp at h2
    | cons d t =>
      simp only [dropLF, Option.map_eq_some_iff]
      constructor
      · rintro ⟨a, ha, rfl⟩
        have := (ih a).1 ha
        rw [this]; rfl
      · intro h
        cases u with
        | nil => simp at h
        | cons e u =>
          simp only [List.cons_append, List.cons.injEq] at h
          obtain ⟨rfl, h⟩ := h
          exact ⟨u, (ih u).2 h, rfl⟩

theorem matches_iff (x : Rx) (t : Text) : x.matches t = true ↔ x.Means t := by
  cases x with
  | start r => exact startsIn_iff r t
  | whole r =>
    simp only [Rx.matches, Rx.Means, Bool.or_eq_true, accepts_iff]
    apply or_congr Iff.rfl
    cases hd : dropLF t with
    | none =>
      simp only [false_iff, Bool.false_eq_true]
      rintro ⟨u, hu, _⟩
      rw [(dropLF_iff t u).2 hu] at hd
      cases hd
    | some u =>
      simp only [accepts_iff]
      have := (dropLF_iff t u).1 hd
      subst this
      constructor
      · intro h; exact ⟨u, rfl, h⟩
      · rintro ⟨v, hv, h⟩
        have := List.append_cancel_right hv
        subst this
        exact h

/-! ### building patterns -/

/-- Proof device; nothing in /repo. -/
def Re.chr (c : Char) : Re := .cls (fun d => d == c)
/-- Proof device; nothing in /repo. -/
def Re.word : Text → Re
  | [] => .eps
  | c :: t => .seq (.chr c) (Re.word t)
/-- Proof device; nothing in /repo. -/
def Re.plus (r : Re) : Re := .seq r (.star r)
/-- Proof device; nothing in /repo. -/
def Re.opt (r : Re) : Re := .alt r .eps
/-- Proof device; nothing in /repo. -/
def Re.words : List Text → Re
  | [] => .none
  | w :: ws => .alt (.word w) (Re.words ws)

theorem lang_none (t : Text) : ¬ Lang .none t := by intro h; cases h
theorem lang_eps (t : Text) : Lang .eps t ↔ t = [] := ⟨fun h => by cases h; rfl, fun h => by subst h; exact .eps⟩
theorem lang_cls (p : Char → Bool) (t : Text) : Lang (.cls p) t ↔ ∃ c, t = [c] ∧ p c = true :=
  ⟨fun h => by cases h; exact ⟨_, rfl, by assumption⟩, fun ⟨c, h, hp⟩ => by subst h; exact .cls hp⟩
theorem lang_seq (r s : Re) (t : Text) : Lang (.seq r s) t ↔ ∃ a b, t = a ++ b ∧ Lang r a ∧ Lang s b :=
  ⟨fun h => by cases h; exact ⟨_, _, rfl, by assumption, by assumption⟩, fun ⟨a, b, h, h1, h2⟩ => by subst h; exact .seq h1 h2⟩
theorem lang_alt (r s : Re) (t : Text) : Lang (.alt r s) t ↔ Lang r t ∨ Lang s t :=
  ⟨fun h => by cases h; exact Or.inl (by assumption); exact Or.inr (by assumption), fun h => h.elim .altl .altr⟩
theorem lang_chr (c : Char) (t : Text) : Lang (.chr c) t ↔ t = [c] := by
  rw [Re.chr, lang_cls]
  constructor
  · rintro ⟨d, rfl, h⟩
    rw [beq_iff_eq] at h
    rw [h]
  · rintro rfl; exact ⟨c, rfl, by simp⟩
theorem lang_opt (r : Re) (t : Text) : Lang (.opt r) t ↔ Lang r t ∨ t = [] := by rw [Re.opt, lang_alt, lang_eps]
theorem lang_word (w t : Text) : Lang (.word w) t ↔ t = w := by
  induction w generalizing t with
  | nil => exact lang_eps t
  | cons c w ih =>
    rw [Re.word, lang_seq]
    constructor
    · rintro ⟨a, b, rfl, h1, h2⟩
      rw [(lang_chr c a).1 h1, (ih b).1 h2]; rfl
    · rintro rfl
      exact ⟨[c], w, rfl, (lang_chr c _).2 rfl, (ih w).2 rfl⟩
theorem lang_words (ws : List Text) (t : Text) : Lang (.words ws) t ↔ t ∈ ws := by
  induction ws with
  | nil => exact ⟨fun h => (lang_none _ h).elim, fun h => by cases h⟩
  | cons w ws ih => rw [Re.words, lang_alt, lang_word, ih, List.mem_cons]

/-- `[...]*`: every character is of the class. -/
theorem lang_star_cls (p : Char → Bool) (t : Text) : Lang (.star (.cls p)) t ↔ ∀ c ∈ t, p c = true := by
  induction t with
  | nil => exact ⟨fun _ c hc => (by cases hc), fun _ => .nil⟩
  | cons c t ih =>
    constructor
    · intro h
      obtain ⟨a, b, hab, h1, h2⟩ := star_cons h
      obtain ⟨d, hd, hp⟩ := (lang_cls p _).1 h1
      simp only [List.cons.injEq] at hd
      obtain ⟨rfl, rfl⟩ := hd
      simp only [List.nil_append] at hab
      subst hab
      intro x hx
      rcases List.mem_cons.1 hx with rfl | hx
      · exact hp
      · exact ih.1 h2 x hx
    · intro h
      exact Lang.more (.cls (h c List.mem_cons_self)) (ih.2 (fun x hx => h x (List.mem_cons_of_mem _ hx)))

/-- `[...]+`. -/
theorem lang_plus_cls (p : Char → Bool) (t : Text) : Lang (.plus (.cls p)) t ↔ t ≠ [] ∧ ∀ c ∈ t, p c = true := by
  rw [Re.plus, lang_seq]
  constructor
  · rintro ⟨a, b, rfl, h1, h2⟩
    obtain ⟨c, rfl, hp⟩ := (lang_cls p a).1 h1
    refine ⟨by simp, ?_⟩
    intro x hx
    rcases List.mem_cons.1 hx with rfl | hx
    · exact hp
    · exact (lang_star_cls p b).1 h2 x hx
  · rintro ⟨hne, h⟩
    cases t with
    | nil => exact absurd rfl hne
    | cons c t => exact ⟨[c], t, rfl, .cls (h c List.mem_cons_self), (lang_star_cls p t).2 (fun x hx => h x (List.mem_cons_of_mem _ hx))⟩

/-- `(r)*`: the text is made of pieces of `r`. -/
theorem lang_star (r : Re) (t : Text) : Lang (.star r) t ↔ ∃ ps : List Text, t = ps.flatten ∧ ∀ p ∈ ps, Lang r p := by
  constructor
  · intro h
    generalize hx : Re.star r = x at h
    induction h with
    | nil => exact ⟨[], rfl, fun _ hp => by cases hp⟩
    | more h1 _ _ ih =>
      cases hx
      obtain ⟨ps, rfl, h⟩ := ih rfl
      refine ⟨_ :: ps, rfl, ?_⟩
      intro p hp
      rcases List.mem_cons.1 hp with rfl | hp
      · exact h1
      · exact h p hp
    | _ => cases hx
  · rintro ⟨ps, rfl, h⟩
    induction ps with
    | nil => exact .nil
    | cons p ps ih => exact Lang.more (h p List.mem_cons_self) (ih (fun q hq => h q (List.mem_cons_of_mem _ hq)))

end Osp.Yaml
