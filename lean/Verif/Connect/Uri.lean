import Verif.Connect.Model
/-!
# C81: the credentials in the URI
-/
namespace Osp.Connect

/-! ## Specification -/

/-- Specification: the address of a server as a user writes it. -/
structure Address where
  scheme : Text
  /-- user name and password; the password may be missing -/
  cred : Option (Text × Option Text)
  /-- host and port -/
  host : Text
  path : Text
  query : Text
  fragment : Text
  deriving DecidableEq, Repr

/-- Specification: `user:password@`. -/
def Address.credText : Option (Text × Option Text) → Text
  | none => []
  | some (u, none) => u ++ ['@']
  | some (u, some p) => u ++ ':' :: p ++ ['@']

/-- Specification: a nonempty part with the character that introduces it. -/
def intro (c : Char) (t : Text) : Text := if t = [] then [] else c :: t

/-- Specification: the URI. -/
def Address.text (a : Address) : Text :=
  a.scheme ++ "://".toList ++ (Address.credText a.cred ++ a.host) ++ (a.path ++ intro '?' a.query ++ intro '#' a.fragment)

/-- Specification: the characters that RFC 3986 does not allow there do not occur. -/
structure Address.Valid (a : Address) : Prop where
  scheme : a.scheme = "ws".toList ∨ a.scheme = "wss".toList
  user : ∀ u p, a.cred = some (u, p) → ∀ c ∈ u, c ≠ ':' ∧ c ≠ '@' ∧ c ≠ '/' ∧ c ≠ '?' ∧ c ≠ '#' ∧ c ≠ '[' ∧ c ≠ ']'
  password : ∀ u p, a.cred = some (u, some p) → ∀ c ∈ p, c ≠ '@' ∧ c ≠ '/' ∧ c ≠ '?' ∧ c ≠ '#' ∧ c ≠ '[' ∧ c ≠ ']'
  host : ∀ c ∈ a.host, c ≠ '@' ∧ c ≠ '/' ∧ c ≠ '?' ∧ c ≠ '#'
  nonempty : a.host ≠ []
  brackets : '[' ∈ a.host ↔ ']' ∈ a.host
  path : a.path = [] ∨ a.path.head? = some '/'
  pathChars : ∀ c ∈ a.path, c ≠ '?' ∧ c ≠ '#'
  query : '#' ∉ a.query

/-- Specification: the credentials say something. -/
def Given : Option (Text × Option Text) → Prop
  | none => False
  | some (u, p) => u ≠ [] ∨ ∃ w, p = some w ∧ w ≠ []

/-! ## Lemmas -/

theorem partition_found {c : Char} {a b : Text} (h : c ∉ a) : partition c (a ++ c :: b) = (a, some b) := by
  induction a with
  | nil => simp [partition]
  | cons x a ih =>
    have hx : x ≠ c := fun e => h (by simp [e])
    simp only [List.cons_append, partition, if_neg hx, ih (fun m => h (List.mem_cons_of_mem _ m))]

theorem partition_absent {c : Char} {a : Text} (h : c ∉ a) : partition c a = (a, none) := by
  induction a with
  | nil => rfl
  | cons x a ih =>
    have hx : x ≠ c := fun e => h (by simp [e])
    simp only [partition, if_neg hx, ih (fun m => h (List.mem_cons_of_mem _ m))]

theorem rpartition_absent {c : Char} {a : Text} (h : c ∉ a) : rpartition c a = (none, a) := by
  induction a with
  | nil => rfl
  | cons x a ih =>
    have hx : x ≠ c := fun e => h (by simp [e])
    simp only [rpartition, ih (fun m => h (List.mem_cons_of_mem _ m)), if_neg hx]

theorem rpartition_found {c : Char} {a b : Text} (h : c ∉ b) : rpartition c (a ++ c :: b) = (some a, b) := by
  induction a with
  | nil => simp [rpartition, rpartition_absent h]
  | cons x a ih => simp only [List.cons_append, rpartition, ih]

theorem cut_at {p : Char → Bool} {a b : Text} (h : ∀ c ∈ a, p c = false) (hb : b = [] ∨ ∃ c t, b = c :: t ∧ p c = true) : cut p (a ++ b) = (a, b) := by
  induction a with
  | nil =>
    rcases hb with rfl | ⟨c, t, rfl, hc⟩
    · rfl
    · simp [cut, hc]
  | cons x a ih =>
    have hx := h x List.mem_cons_self
    simp only [List.cons_append, cut, hx, Bool.false_eq_true, if_false, ih (fun c m => h c (List.mem_cons_of_mem _ m))]

theorem splitOn_absent {c : Char} {a : Text} (h : c ∉ a) : splitOn c a = [a] := by
  induction a with
  | nil => rfl
  | cons x a ih =>
    have hx : x ≠ c := fun e => h (by simp [e])
    simp only [splitOn, if_neg hx, ih (fun m => h (List.mem_cons_of_mem _ m))]

theorem splitOn_found {c : Char} {a b : Text} (h : c ∉ a) : splitOn c (a ++ c :: b) = a :: splitOn c b := by
  induction a with
  | nil => simp [splitOn]
  | cons x a ih =>
    have hx : x ≠ c := fun e => h (by simp [e])
    simp only [List.cons_append, splitOn, if_neg hx, ih (fun m => h (List.mem_cons_of_mem _ m))]

theorem scheme_split {s r : Text} (h : s = "ws".toList ∨ s = "wss".toList) : splitScheme (s ++ ':' :: r) = (s, r) := by
  rcases h with rfl | rfl
  · unfold splitScheme
    rw [partition_found (by decide)]
    simp only [String.toList]
    rfl
  · unfold splitScheme
    rw [partition_found (by decide)]
    rfl

/-- Proof device; nothing in /repo. The rest of a URI after the network location. -/
structure Tail (p q : Text) : Prop where
  path : p = [] ∨ p.head? = some '/'
  pathChars : ∀ c ∈ p, c ≠ '?' ∧ c ≠ '#'
  query : '#' ∉ q

theorem tail_head {path query fragment : Text} (h : Tail path query) :
    path ++ intro '?' query ++ intro '#' fragment = [] ∨ ∃ c t, path ++ intro '?' query ++ intro '#' fragment = c :: t ∧ (c == '/' || c == '?' || c == '#') = true := by
  cases path with
  | cons x p =>
    rcases h.path with h | h
    · cases h
    · simp only [List.head?_cons, Option.some.injEq] at h
      subst h
      exact Or.inr ⟨_, _, rfl, rfl⟩
  | nil =>
    cases query with
    | cons x q => exact Or.inr ⟨'?', x :: q ++ intro '#' fragment, by simp [intro], rfl⟩
    | nil =>
      cases fragment with
      | cons x f => exact Or.inr ⟨'#', x :: f, by simp [intro], rfl⟩
      | nil => exact Or.inl rfl

theorem tail_parts {path query fragment : Text} (h : Tail path query) :
    (partition '#' (path ++ intro '?' query ++ intro '#' fragment)).1 = path ++ intro '?' query ∧
    (partition '#' (path ++ intro '?' query ++ intro '#' fragment)).2.getD [] = fragment ∧
    (partition '?' (path ++ intro '?' query)).1 = path ∧ (partition '?' (path ++ intro '?' query)).2.getD [] = query := by
  have h1 : '#' ∉ path ++ intro '?' query := by
    intro m
    rcases List.mem_append.1 m with m | m
    · exact (h.pathChars _ m).2 rfl
    · unfold intro at m
      split at m
      · cases m
      · rcases List.mem_cons.1 m with m | m
        · cases m
        · exact h.query m
  have h2 : '?' ∉ path := fun m => (h.pathChars _ m).1 rfl
  refine ⟨?_, ?_, ?_, ?_⟩
  · by_cases hf : fragment = []
    · subst hf
      rw [show intro '#' [] = [] from rfl, List.append_nil, partition_absent h1]
    · rw [show intro '#' fragment = '#' :: fragment from by simp [intro, hf], partition_found h1]
  · by_cases hf : fragment = []
    · subst hf
      rw [show intro '#' [] = [] from rfl, List.append_nil, partition_absent h1]; rfl
    · rw [show intro '#' fragment = '#' :: fragment from by simp [intro, hf], partition_found h1]; rfl
  · by_cases hf : query = []
    · subst hf
      simp only [intro, if_true, List.append_nil]
      rw [partition_absent h2]
    · rw [show intro '?' query = '?' :: query from by simp [intro, hf], partition_found h2]
  · by_cases hf : query = []
    · subst hf
      simp only [intro, if_true, List.append_nil]
      rw [partition_absent h2]; rfl
    · rw [show intro '?' query = '?' :: query from by simp [intro, hf], partition_found h2]; rfl

theorem urlparse_text {s n p q f : Text} (hs : s = "ws".toList ∨ s = "wss".toList) (hn : ∀ c ∈ n, c ≠ '/' ∧ c ≠ '?' ∧ c ≠ '#') (hb : '[' ∈ n ↔ ']' ∈ n) (h : Tail p q) :
    urlparse (s ++ "://".toList ++ n ++ (p ++ intro '?' q ++ intro '#' f)) = .ok ⟨s, n, p, q, f⟩ := by
  obtain ⟨t1, t2, t3, t4⟩ := tail_parts h
  have e : s ++ "://".toList ++ n ++ (p ++ intro '?' q ++ intro '#' f) = s ++ ':' :: ('/' :: '/' :: (n ++ (p ++ intro '?' q ++ intro '#' f))) := by
    simp [List.append_assoc]
  unfold urlparse
  rw [e, scheme_split hs]
  simp only [splitNetloc]
  rw [cut_at (by intro c hc; have := hn c hc; simp [this]) (tail_head h)]
  have hbr : brackets n = false := by
    unfold brackets
    have h1 : n.contains '[' = n.contains ']' := by
      rw [Bool.eq_iff_iff, List.contains_iff_mem, List.contains_iff_mem]; exact hb
    rw [h1]; simp
  simp only [hbr, Bool.false_eq_true, if_false]
  rw [t1, t2, t3, t4]

theorem urlunparse_text {s n p q f : Text} (hs : s = "ws".toList ∨ s = "wss".toList) (hn : n ≠ []) (h : p = [] ∨ p.head? = some '/') :
    urlunparse ⟨s, n, p, q, f⟩ = s ++ "://".toList ++ n ++ (p ++ intro '?' q ++ intro '#' f) := by
  have hs' : s ≠ [] := by rcases hs with rfl | rfl <;> decide
  have hp : (if p ≠ [] ∧ p.head? ≠ some '/' then '/' :: p else p) = p := by
    rw [if_neg]; rintro ⟨h1, h2⟩; rcases h with h | h
    · exact h1 h
    · exact h2 h
  unfold urlunparse
  simp only [hn, ne_eq, not_false_eq_true, true_or, if_true, hs', hp]
  unfold intro
  split <;> split <;> simp_all [List.append_assoc]

/-! ## Theorems -/

theorem cred_chars {a : Address} (h : a.Valid) : ∀ c ∈ Address.credText a.cred ++ a.host, c ≠ '/' ∧ c ≠ '?' ∧ c ≠ '#' := by
  intro c hc
  rcases List.mem_append.1 hc with hc | hc
  · cases hcr : a.cred with
    | none => rw [hcr] at hc; cases hc
    | some up =>
      obtain ⟨u, p⟩ := up
      rw [hcr] at hc
      cases p with
      | none =>
        rcases List.mem_append.1 hc with hc | hc
        · have := h.user u _ hcr c hc; exact ⟨this.2.2.1, this.2.2.2.1, this.2.2.2.2.1⟩
        · simp only [List.mem_cons, List.not_mem_nil, or_false] at hc; subst hc; decide
      | some p =>
        simp only [Address.credText, List.append_assoc, List.mem_append, List.cons_append, List.mem_cons, List.not_mem_nil, or_false] at hc
        rcases hc with hc | hc | hc | hc
        · have := h.user u _ hcr c hc; exact ⟨this.2.2.1, this.2.2.2.1, this.2.2.2.2.1⟩
        · subst hc; decide
        · have := h.password u p hcr c hc; exact ⟨this.2.1, this.2.2.1, this.2.2.2.1⟩
        · subst hc; decide
  · have := h.host c hc; exact ⟨this.2.1, this.2.2.1, this.2.2.2⟩

theorem cred_brackets {a : Address} (h : a.Valid) : ∀ c, c = '[' ∨ c = ']' → (c ∈ Address.credText a.cred ++ a.host ↔ c ∈ a.host) := by
  intro c hcc
  rw [List.mem_append]
  constructor
  · rintro (hc | hc)
    · exfalso
      cases hcr : a.cred with
      | none => rw [hcr] at hc; cases hc
      | some up =>
        obtain ⟨u, p⟩ := up
        rw [hcr] at hc
        have hu : c ∉ u := fun m => by
          have := h.user u _ hcr c m
          rcases hcc with rfl | rfl
          · exact this.2.2.2.2.2.1 rfl
          · exact this.2.2.2.2.2.2 rfl
        cases p with
        | none =>
          rcases List.mem_append.1 hc with hc | hc
          · exact hu hc
          · rcases hcc with rfl | rfl <;> revert hc <;> decide
        | some p =>
          have hp : c ∉ p := fun m => by
            have := h.password u p hcr c m
            rcases hcc with rfl | rfl
            · exact this.2.2.2.2.1 rfl
            · exact this.2.2.2.2.2 rfl
          simp only [Address.credText, List.append_assoc, List.mem_append, List.cons_append, List.mem_cons, List.not_mem_nil, or_false] at hc
          rcases hc with hc | hc | hc | hc
          · exact hu hc
          · rcases hcc with rfl | rfl <;> cases hc
          · exact hp hc
          · rcases hcc with rfl | rfl <;> cases hc
    · exact hc
  · exact Or.inr

theorem valid_parse {a : Address} (h : a.Valid) : urlparse a.text = .ok ⟨a.scheme, Address.credText a.cred ++ a.host, a.path, a.query, a.fragment⟩ :=
  urlparse_text h.scheme (cred_chars h) (by rw [cred_brackets h _ (Or.inl rfl), cred_brackets h _ (Or.inr rfl)]; exact h.brackets) ⟨h.path, h.pathChars, h.query⟩

theorem host_no_at {a : Address} (h : a.Valid) : '@' ∉ a.host := fun m => (h.host _ m).1 rfl

/-- Proof device; nothing in /repo. The text before the `@`. -/
def info (u : Text) : Option Text → Text
  | none => u
  | some p => u ++ ':' :: p

theorem credText_info (u : Text) (p : Option Text) (r : Text) : Address.credText (some (u, p)) ++ r = info u p ++ '@' :: r := by
  cases p <;> simp [Address.credText, info, List.append_assoc]

theorem info_no_at {a : Address} (h : a.Valid) {u : Text} {p : Option Text} (hc : a.cred = some (u, p)) : '@' ∉ info u p := by
  have hu : '@' ∉ u := fun m => (h.user u p hc _ m).2.1 rfl
  cases p with
  | none => exact hu
  | some p =>
    intro m
    simp only [info, List.mem_append, List.mem_cons] at m
    rcases m with m | m | m
    · exact hu m
    · cases m
    · exact (h.password u p hc _ m).1 rfl

theorem info_parts {a : Address} (h : a.Valid) {u : Text} {p : Option Text} (hc : a.cred = some (u, p)) : partition ':' (info u p) = (u, p) := by
  have hu : ':' ∉ u := fun m => (h.user u p hc _ m).1 rfl
  cases p with
  | none => exact partition_absent hu
  | some p => exact partition_found hu

theorem given_truthy {u : Text} {p : Option Text} : Given (some (u, p)) ↔ truthyText (some u) ∨ truthyText p := by
  cases p <;> cases u <;> simp [Given, truthyText] <;> (rename_i w; cases w <;> simp)

/-- **C81.** With credentials in the URI the client connects to the address without the credentials, and uses exactly these credentials, for every valid address. -/
theorem credentials_removed (a : Address) (h : a.Valid) {u : Text} {p : Option Text} (hc : a.cred = some (u, p)) (hg : Given a.cred) :
    parseUri a.text = .ok ({ a with cred := none }.text, some u, p) := by
  unfold parseUri
  rw [valid_parse h]
  simp only
  have hu : userinfo (Address.credText a.cred ++ a.host) = (some u, p) := by
    unfold userinfo
    rw [hc, credText_info, rpartition_found (host_no_at h)]
    simp only [info_parts h hc]
  rw [hu]
  simp only
  rw [if_pos (given_truthy.1 (hc ▸ hg)), hc, credText_info, splitOn_found (info_no_at h hc), splitOn_absent (host_no_at h)]
  simp only [urlunparse_text h.scheme h.nonempty h.path]
  rfl

/-- **C81.** Without credentials (or with empty ones) the client connects to the address as given. -/
theorem address_unchanged (a : Address) (h : a.Valid) (hg : ¬ Given a.cred) :
    parseUri a.text = .ok (a.text, a.cred.map Prod.fst, a.cred.bind Prod.snd) := by
  unfold parseUri
  rw [valid_parse h]
  simp only
  have hu : userinfo (Address.credText a.cred ++ a.host) = (a.cred.map Prod.fst, a.cred.bind Prod.snd) := by
    unfold userinfo
    cases hc : a.cred with
    | none => rw [show Address.credText none ++ a.host = a.host from rfl, rpartition_absent (host_no_at h)]; rfl
    | some up =>
      obtain ⟨u, p⟩ := up
      rw [credText_info, rpartition_found (host_no_at h)]
      simp only [info_parts h hc]; rfl
  rw [hu]
  simp only
  rw [if_neg]
  · rw [urlunparse_text h.scheme (by intro e; exact h.nonempty (List.append_eq_nil_iff.1 e).2) h.path]; rfl
  · intro ht
    apply hg
    cases hc : a.cred with
    | none => rw [hc] at ht; simp [truthyText] at ht
    | some up => rw [hc] at ht; exact given_truthy.2 ht

/-- **C81.** Which host the client connects to is independent of the credentials: two addresses that differ in them only give the same connection. -/
theorem connection_independent (a b : Address) (ha : a.Valid) (hb : b.Valid) (ga : Given a.cred) (gb : Given b.cred) (h : { a with cred := none } = { b with cred := none }) :
    ((parseUri a.text).toOption.map Prod.fst) = ((parseUri b.text).toOption.map Prod.fst) := by
  cases hca : a.cred with
  | none => rw [hca] at ga; cases ga
  | some ua =>
    cases hcb : b.cred with
    | none => rw [hcb] at gb; cases gb
    | some ub =>
      rw [credentials_removed a ha hca ga, credentials_removed b hb hcb gb]
      simp only [Except.toOption, Option.map_some]
      rw [h]

/-- **C81, the limit.** A password with an unescaped `@` (not valid in a URI): the client connects to a host taken from the password, and the given host is ignored. -/
theorem at_sign_in_password {s u p₁ p₂ host : Text} (hs : s = "ws".toList ∨ s = "wss".toList)
    (hu : ∀ c ∈ u, c ≠ ':' ∧ c ≠ '@' ∧ c ≠ '/' ∧ c ≠ '?' ∧ c ≠ '#' ∧ c ≠ '[' ∧ c ≠ ']')
    (h1 : ∀ c ∈ p₁, c ≠ '@' ∧ c ≠ '/' ∧ c ≠ '?' ∧ c ≠ '#' ∧ c ≠ '[' ∧ c ≠ ']')
    (h2 : ∀ c ∈ p₂, c ≠ '@' ∧ c ≠ '/' ∧ c ≠ '?' ∧ c ≠ '#' ∧ c ≠ '[' ∧ c ≠ ']') (hne : p₂ ≠ []) (hu0 : u ≠ [])
    (hh : ∀ c ∈ host, c ≠ '@' ∧ c ≠ '/' ∧ c ≠ '?' ∧ c ≠ '#' ∧ c ≠ '[' ∧ c ≠ ']') :
    parseUri (s ++ "://".toList ++ (u ++ ':' :: p₁ ++ '@' :: p₂ ++ '@' :: host)) = .ok (s ++ "://".toList ++ p₂, some u, some (p₁ ++ '@' :: p₂)) := by
  have hn : ∀ c ∈ u ++ ':' :: p₁ ++ '@' :: p₂ ++ '@' :: host, (c ≠ '/' ∧ c ≠ '?' ∧ c ≠ '#') ∧ c ≠ '[' ∧ c ≠ ']' := by
    intro c hc
    simp only [List.append_assoc, List.mem_append, List.cons_append, List.mem_cons] at hc
    rcases hc with hc | hc | hc | hc | hc | hc | hc
    · have := hu c hc; exact ⟨⟨this.2.2.1, this.2.2.2.1, this.2.2.2.2.1⟩, this.2.2.2.2.2⟩
    · subst hc; decide
    · have := h1 c hc; exact ⟨⟨this.2.1, this.2.2.1, this.2.2.2.1⟩, this.2.2.2.2⟩
    · subst hc; decide
    · have := h2 c hc; exact ⟨⟨this.2.1, this.2.2.1, this.2.2.2.1⟩, this.2.2.2.2⟩
    · subst hc; decide
    · have := hh c hc; exact ⟨⟨this.2.1, this.2.2.1, this.2.2.2.1⟩, this.2.2.2.2⟩
  have hp := urlparse_text (p := []) (q := []) (f := []) hs (fun c hc => (hn c hc).1)
    ⟨fun m => absurd rfl (hn _ m).2.1, fun m => absurd rfl (hn _ m).2.2⟩ ⟨Or.inl rfl, (by intro c h; cases h), (by intro h; cases h)⟩
  simp only [intro, if_true, List.append_nil] at hp
  unfold parseUri
  rw [hp]
  simp only
  have e1 : u ++ ':' :: p₁ ++ '@' :: p₂ ++ '@' :: host = (u ++ ':' :: (p₁ ++ '@' :: p₂)) ++ '@' :: host := by simp [List.append_assoc]
  have e2 : u ++ ':' :: p₁ ++ '@' :: p₂ ++ '@' :: host = (u ++ ':' :: p₁) ++ '@' :: (p₂ ++ '@' :: host) := by simp [List.append_assoc]
  have hui : userinfo (u ++ ':' :: p₁ ++ '@' :: p₂ ++ '@' :: host) = (some u, some (p₁ ++ '@' :: p₂)) := by
    unfold userinfo
    rw [e1, rpartition_found (fun m => (hh _ m).1 rfl)]
    simp only [partition_found (fun m => (hu _ m).1 rfl : ':' ∉ u)]
  rw [hui]
  simp only
  have ht : truthyText (some u) = true := by cases u <;> simp_all [truthyText]
  rw [if_pos (Or.inl ht), e2, splitOn_found, splitOn_found (fun m => (h2 _ m).1 rfl)]
  · simp only [urlunparse_text (p := []) (q := []) (f := []) hs hne (Or.inl rfl)]
    simp [intro]
  · intro m
    simp only [List.mem_append, List.mem_cons] at m
    rcases m with m | m | m
    · exact (hu _ m).2.1 rfl
    · cases m
    · exact (h1 _ m).1 rfl

/-! ### witnesses -/

/-- `wss://alice:pw:1@[::1]:8687/x?y#z` -/
def exAddress : Address := ⟨"wss".toList, some ("alice".toList, some "pw:1".toList), "[::1]:8687".toList, "/x".toList, "y".toList, "z".toList⟩

example : exAddress.text = "wss://alice:pw:1@[::1]:8687/x?y#z".toList := by decide +kernel
theorem exAddress_valid : exAddress.Valid where
  scheme := by decide
  user := by intro u p h; simp only [exAddress, Option.some.injEq, Prod.mk.injEq] at h; obtain ⟨rfl, _⟩ := h; decide
  password := by intro u p h; simp only [exAddress, Option.some.injEq, Prod.mk.injEq] at h; obtain ⟨_, rfl⟩ := h; decide
  host := by decide
  nonempty := by decide
  brackets := by decide
  path := by decide
  pathChars := by decide
  query := by decide
example : Given exAddress.cred := Or.inl (by decide)
example : parseUri exAddress.text = .ok ("wss://[::1]:8687/x?y#z".toList, some "alice".toList, some "pw:1".toList) := by decide +kernel
/-- The password `p@evil` sends the client, with the password, to the host `evil`. -/
theorem wrong_host : parseUri "ws://alice:p@evil@host:1".toList = .ok ("ws://evil".toList, some "alice".toList, some "p@evil".toList) := by decide +kernel
/-- Escaped, it arrives at the right host but is not decoded. -/
theorem password_not_decoded : parseUri "ws://alice:p%40evil@host:1".toList = .ok ("ws://host:1".toList, some "alice".toList, some "p%40evil".toList) := by decide +kernel
/-- Empty credentials stay in the URI. -/
theorem empty_credentials_kept : parseUri "ws://@host:1".toList = .ok ("ws://@host:1".toList, some [], none) := by decide +kernel

end Osp.Connect
