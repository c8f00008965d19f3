import Verif.Iri.Model
/-!
# Conversion of uids to IRIs and back (C45), substitution of the root (C40)
-/
namespace Osp.Iri

/-- The characters `'%x'` prints. -/
def isHex (c : Char) : Prop := ∃ n, n < 16 ∧ c = hexDigit n

theorem hex_facts : ∀ n, n < 16 → hexVal (hexDigit n) = some n ∧ hexDigit n ≠ '_' ∧ hexDigit n ≠ '-' ∧ hexDigit n ≠ '+' ∧ hexDigit n ≠ 'u' ∧ hexDigit n ≠ '{' ∧
    hexDigit n ≠ '}' ∧ hexDigit n ≠ 'x' ∧ hexDigit n ≠ 'X' ∧ isSpace (hexDigit n) = false := by
  decide

theorem toHex_length : ∀ k n, (toHex k n).length = k := by
  intro k
  induction k with
  | zero => intro n; rfl
  | succ k ih => intro n; simp [toHex, ih]

theorem toHex_hex : ∀ k n, ∀ c ∈ toHex k n, isHex c := by
  intro k
  induction k with
  | zero => intro n c hc; simp [toHex] at hc
  | succ k ih =>
    intro n c hc
    unfold toHex at hc
    rcases List.mem_append.1 hc with h | h
    · exact ih _ c h
    · simp only [List.mem_cons, List.not_mem_nil, or_false] at h
      exact ⟨n % 16, Nat.mod_lt _ (by decide), h⟩

/-! ### the parser on canonical texts -/

theorem digits_step {n : Nat} (hn : n < 16) (t : List Char) (s : Bool) (acc : Nat) : digits (hexDigit n :: t) s acc = digits t true (16 * acc + n) := by
  have hf := hex_facts n hn
  have hne := hf.2.1
  have hv := hf.1
  generalize hexDigit n = c at hne hv
  rw [digits.eq_def]
  split
  · rename_i h; cases h
  · rename_i h1; injection h1 with h1 _; exact absurd h1 hne
  · rename_i h1 _
    injection h1 with h1 h2
    subst h1 h2
    rw [hv]
    rfl

theorem digits_append_one : ∀ (t : List Char) (c : Char) (s : Bool) (acc m : Nat), (∀ x ∈ t, isHex x) → isHex c → digits t true acc = some m →
    (s = true ∨ t ≠ []) → digits t s acc = some m → digits (t ++ [c]) s acc = (hexVal c).map (fun d => 16 * m + d) := by
  intro t
  induction t with
  | nil =>
    intro c s acc m _ hc h1 hs h2
    obtain ⟨n, hn, rfl⟩ := hc
    simp only [digits, if_true] at h1
    injection h1 with h1
    subst h1
    show digits [hexDigit n] s acc = _
    rw [digits_step hn, (hex_facts n hn).1]
    rfl
  | cons a t ih =>
    intro c s acc m ht hc h1 hs h2
    obtain ⟨n, hn, rfl⟩ := ht a List.mem_cons_self
    have step := fun (s : Bool) (t' : List Char) => digits_step hn t' s acc
    rw [step] at h1
    rw [List.cons_append, step]
    exact ih c true _ m (fun x hx => ht x (List.mem_cons_of_mem _ hx)) hc h1 (Or.inl rfl) h1

theorem digits_toHex : ∀ k n, digits (toHex k n) true 0 = some (n % 16 ^ k) ∧ (0 < k → digits (toHex k n) false 0 = some (n % 16 ^ k)) := by
  intro k
  induction k with
  | zero => intro n; exact ⟨by simp [toHex, digits, Nat.mod_one], fun h => absurd h (by decide)⟩
  | succ k ih =>
    intro n
    obtain ⟨h1, h2⟩ := ih (n / 16)
    have hval : ∀ d, d = n % 16 → 16 * (n / 16 % 16 ^ k) + d = n % 16 ^ (k + 1) := by
      intro d hd
      subst hd
      rw [Nat.pow_succ, Nat.mul_comm (16 ^ k) 16, Nat.mod_mul]
      omega
    have hlt : n % 16 < 16 := Nat.mod_lt _ (by decide)
    have hf := (hex_facts _ hlt).1
    refine ⟨?_, fun _ => ?_⟩
    · unfold toHex
      rw [digits_append_one _ _ true 0 _ (toHex_hex k _) ⟨_, hlt, rfl⟩ h1 (Or.inl rfl) h1, hf]
      simp only [Option.map_some]
      rw [hval _ rfl]
    · unfold toHex
      cases k with
      | zero =>
        simp only [toHex, List.nil_append]
        rw [digits_step hlt]
        simp only [digits, if_true, Nat.mul_zero, Nat.zero_add, Nat.pow_one]
      | succ k =>
        have hne : toHex (k + 1) (n / 16) ≠ [] := by
          intro h
          have := toHex_length (k + 1) (n / 16)
          rw [h] at this
          simp at this
        rw [digits_append_one _ _ false 0 _ (toHex_hex (k + 1) _) ⟨_, hlt, rfl⟩ h1 (Or.inr hne) (h2 (by omega)), hf]
        simp only [Option.map_some]
        rw [hval _ rfl]

theorem removeAll_id (p : Char) (pat : List Char) : ∀ (n : Nat) (t : List Char), p ∉ t → removeAll (p :: pat) n t = t := by
  intro n
  induction n with
  | zero => intro t _; rfl
  | succ n ih =>
    intro t ht
    cases t with
    | nil => rfl
    | cons c t =>
      unfold removeAll
      have hne : p ≠ c := fun h => ht (h ▸ List.mem_cons_self)
      have hb : (p :: pat).isPrefixOf (c :: t) = false := by
        show (p == c && pat.isPrefixOf t) = false
        rw [beq_eq_false_iff_ne.2 hne]; rfl
      rw [hb]
      simp only [Bool.false_eq_true, if_false]
      rw [ih t (fun h => ht (List.mem_cons_of_mem _ h))]

theorem dropWhile_id {α : Type} (p : α → Bool) (t : List α) (h : ∀ c ∈ t, p c = false) : t.dropWhile p = t := by
  cases t with
  | nil => rfl
  | cons c t => rw [List.dropWhile_cons, h c List.mem_cons_self]; rfl

theorem uuidStr_chars (u : Nat) : ∀ c ∈ uuidStr u, isHex c ∨ c = '-' := by
  intro c hc
  unfold uuidStr at hc
  have hh := toHex_hex 32 u
  simp only [List.append_assoc, List.cons_append, List.mem_append, List.mem_cons] at hc
  rcases hc with h | h | h | h | h | h | h | h | h
  · exact Or.inl (hh c (List.mem_of_mem_take h))
  · exact Or.inr h
  · exact Or.inl (hh c (List.mem_of_mem_drop (List.mem_of_mem_take h)))
  · exact Or.inr h
  · exact Or.inl (hh c (List.mem_of_mem_drop (List.mem_of_mem_take h)))
  · exact Or.inr h
  · exact Or.inl (hh c (List.mem_of_mem_drop (List.mem_of_mem_take h)))
  · exact Or.inr h
  · exact Or.inl (hh c (List.mem_of_mem_drop h))

theorem uuidStr_filter (u : Nat) : (uuidStr u).filter (fun x => decide (x ≠ '-')) = toHex 32 u := by
  have hh : ∀ c ∈ toHex 32 u, decide (c ≠ '-') = true := by
    intro c hc
    obtain ⟨n, hn, rfl⟩ := toHex_hex 32 u c hc
    simpa using (hex_facts n hn).2.2.1
  have key : ∀ l : List Char, (∀ c ∈ l, c ∈ toHex 32 u) → l.filter (fun x => decide (x ≠ '-')) = l := by
    intro l hl
    rw [List.filter_eq_self]
    intro c hc
    exact hh c (hl c hc)
  unfold uuidStr
  simp only [List.filter_append, List.filter_cons, ne_eq, not_true_eq_false, decide_false, Bool.false_eq_true, if_false]
  rw [key _ (fun c h => List.mem_of_mem_take h), key _ (fun c h => List.mem_of_mem_drop (List.mem_of_mem_take h)),
    key _ (fun c h => List.mem_of_mem_drop (List.mem_of_mem_take h)), key _ (fun c h => List.mem_of_mem_drop (List.mem_of_mem_take h)),
    key _ (fun c h => List.mem_of_mem_drop h)]
  generalize toHex 32 u = h
  have e1 : (h.drop 16).take 4 ++ h.drop 20 = h.drop 16 := by
    have : h.drop 20 = (h.drop 16).drop 4 := by rw [List.drop_drop]
    rw [this, List.take_append_drop]
  have e2 : (h.drop 12).take 4 ++ h.drop 16 = h.drop 12 := by
    have : h.drop 16 = (h.drop 12).drop 4 := by rw [List.drop_drop]
    rw [this, List.take_append_drop]
  have e3 : (h.drop 8).take 4 ++ h.drop 12 = h.drop 8 := by
    have : h.drop 12 = (h.drop 8).drop 4 := by rw [List.drop_drop]
    rw [this, List.take_append_drop]
  simp only [List.append_assoc]
  rw [e1, e2, e3, List.take_append_drop]

theorem parse_uuidStr (u : Nat) (hu : u < 2 ^ 128) : parseUuid (uuidStr u) = some u := by
  have hch := uuidStr_chars u
  have hnu : 'u' ∉ uuidStr u := by
    intro h
    rcases hch _ h with ⟨n, hn, e⟩ | e
    · exact (hex_facts n hn).2.2.2.2.1 e.symm
    · revert e; decide
  have hurn : "urn:".toList = 'u' :: "rn:".toList := by decide
  have huuid : "uuid:".toList = 'u' :: "uid:".toList := by decide
  have hbr : ∀ c ∈ uuidStr u, decide (c = '{' ∨ c = '}') = false := by
    intro c hc
    rcases hch _ hc with ⟨n, hn, rfl⟩ | rfl
    · have := hex_facts n hn
      simp [this.2.2.2.2.2.1, this.2.2.2.2.2.2.1]
    · decide
  have hstrip : stripBraces (uuidStr u) = uuidStr u := by
    unfold stripBraces
    dsimp only
    rw [dropWhile_id _ _ hbr, dropWhile_id _ _ (fun c hc => hbr c (List.mem_reverse.1 hc)), List.reverse_reverse]
  have hsp : ∀ c ∈ toHex 32 u, isSpace c = false := by
    intro c hc
    obtain ⟨n, hn, rfl⟩ := toHex_hex 32 u c hc
    exact (hex_facts n hn).2.2.2.2.2.2.2.2.2
  have hspace : stripSpace (toHex 32 u) = toHex 32 u := by
    unfold stripSpace
    rw [dropWhile_id _ _ hsp, dropWhile_id _ _ (fun c hc => hsp c (List.mem_reverse.1 hc)), List.reverse_reverse]
  have hmod : u % 16 ^ 32 = u := Nat.mod_eq_of_lt (by
    have : (16 : Nat) ^ 32 = 2 ^ 128 := by decide
    rw [this]; exact hu)
  unfold parseUuid replaceEmpty
  dsimp only
  rw [hurn, huuid, removeAll_id _ _ _ _ hnu, removeAll_id _ _ _ _ hnu, hstrip, uuidStr_filter, toHex_length]
  simp only [ne_eq, not_true_eq_false, if_false]
  unfold pyIntHex
  rw [hspace]
  have hh := toHex_hex 32 u
  have hdig := (digits_toHex 32 u).2 (by decide)
  rw [hmod] at hdig
  generalize toHex 32 u = h at hh hdig
  split
  · obtain ⟨n, hn, e⟩ := hh '+' List.mem_cons_self
    exact absurd e.symm (hex_facts n hn).2.2.2.1
  · obtain ⟨n, hn, e⟩ := hh '-' List.mem_cons_self
    exact absurd e.symm (hex_facts n hn).2.2.1
  · unfold afterBase
    split
    · obtain ⟨n, hn, e⟩ := hh 'x' (by simp)
      exact absurd e.symm (hex_facts n hn).2.2.2.2.2.2.2.1
    · obtain ⟨n, hn, e⟩ := hh 'X' (by simp)
      exact absurd e.symm (hex_facts n hn).2.2.2.2.2.2.2.2.1
    · exact hdig

/-! ### C45 -/

/-- **C45.** The uid read from the IRI of a uid is that uid, for all 128 bit uids; so different uids have different IRIs. Partial: `uid_from_iri` does not
reject other IRIs, see `uidFromIri_ignores_prefix` and `uidFromIri_not_injective`. -/
theorem uid_iri_roundtrip_partial (u : Nat) (hu : u < 2 ^ 128) : uidFromIri (iriFromUid u) = some u := by
  unfold uidFromIri iriFromUid
  rw [List.drop_left]
  exact parse_uuidStr u hu

theorem iriFromUid_injective (u v : Nat) (hu : u < 2 ^ 128) (hv : v < 2 ^ 128) (h : iriFromUid u = iriFromUid v) : u = v := by
  have h1 := uid_iri_roundtrip_partial u hu
  rw [h, uid_iri_roundtrip_partial v hv] at h1
  injection h1 with h1
  exact h1.symm

example : iriFromUid 0x123e4567e89b12d3a456426614174000 = "http://www.osp-core.com/cuds/#123e4567-e89b-12d3-a456-426614174000".toList := by decide +kernel

/-- Finding: any text of the length of the prefix in front of the uid is accepted. -/
theorem uidFromIri_ignores_prefix (u : Nat) (hu : u < 2 ^ 128) (p : List Char) (hp : p.length = cudsPrefix.length) : uidFromIri (p ++ uuidStr u) = some u := by
  unfold uidFromIri
  rw [← hp, List.drop_left]
  exact parse_uuidStr u hu

/-- Finding: different IRIs are the same object: capitals, braces, `urn:`, missing or additional dashes, underscores, spaces. -/
theorem uidFromIri_not_injective :
    uidFromIri "http://www.osp-core.com/cuds/#123E4567E89B12D3A456426614174000".toList = some 0x123e4567e89b12d3a456426614174000 ∧
    uidFromIri "http://www.osp-core.com/cuds/#{urn:uuid:123e4567-e89b-12d3-a456-426614174000}".toList = some 0x123e4567e89b12d3a456426614174000 ∧
    uidFromIri "http://www.osp-core.com/cuds/# 0x_123e4567e89b12d3a4564266141 ".toList = some 0x123e4567e89b12d3a4564266141 := by
  decide +kernel

/-! ### C40 -/

theorem prefix_iriFromUid (u : Nat) : cudsPrefix.isPrefixOf (iriFromUid u) = true := by
  rw [List.isPrefixOf_iff_prefix]
  exact List.prefix_append _ _

/-- The terms of normal graphs: the IRI of an object, or a text that does not start with the prefix of such IRIs. -/
def Plain (x : Term) : Prop := (∃ u, u < 2 ^ 128 ∧ x = .iri (iriFromUid u)) ∨ cudsPrefix.isPrefixOf x.text = false

/-- `x` is the IRI of the object `u`. -/
def IsObj (x : Term) (u : Nat) : Prop := x = .iri (iriFromUid u)

theorem substTerm_plain {old new : Nat} (ho : old < 2 ^ 128) {x : Term} (hx : Plain x) :
    substTerm old new x = .ok (if x = .iri (iriFromUid old) then .iri (iriFromUid new) else x) := by
  unfold substTerm
  rcases hx with ⟨u, hu, rfl⟩ | hx
  · simp only [Term.text, prefix_iriFromUid, if_true, uid_iri_roundtrip_partial u hu]
    by_cases h : u = old
    · subst h; simp
    · rw [if_neg h, if_neg]
      intro k
      injection k with k
      exact h (iriFromUid_injective u old hu ho k)
  · rw [hx]
    simp only [Bool.false_eq_true, if_false]
    rw [if_neg]
    rintro rfl
    have := prefix_iriFromUid old
    simp only [Term.text] at hx
    rw [hx] at this
    cases this

theorem substTerm_back {root : Nat} (hr : root < 2 ^ 128) {x : Term} (hx : Plain x) (h0 : ¬ IsObj x 0) :
    ∃ y, substTerm root 0 x = .ok y ∧ substTerm 0 root y = .ok x ∧ Plain y ∧ (root ≠ 0 → ¬ IsObj y root) := by
  rw [substTerm_plain hr hx]
  by_cases h : x = .iri (iriFromUid root)
  · subst h
    rw [if_pos rfl]
    refine ⟨_, rfl, ?_, Or.inl ⟨0, by decide, rfl⟩, ?_⟩
    · rw [substTerm_plain (by decide) (Or.inl ⟨0, by decide, rfl⟩), if_pos rfl]
    · intro hne k
      injection k with k
      exact hne (iriFromUid_injective 0 root (by decide) hr k).symm
  · rw [if_neg h]
    refine ⟨x, rfl, ?_, hx, fun _ => h⟩
    rw [substTerm_plain (by decide) hx, if_neg (by unfold IsObj at h0; exact h0)]

def PlainTriple (t : Triple) : Prop :=
  (Plain t.1 ∧ ¬ IsObj t.1 0) ∧ (Plain t.2.1 ∧ ¬ IsObj t.2.1 0) ∧ (Plain t.2.2 ∧ ¬ IsObj t.2.2 0)

theorem substTriple_back {root : Nat} (hr : root < 2 ^ 128) {t : Triple} (ht : PlainTriple t) :
    ∃ y, substTriple root 0 t = .ok y ∧ substTriple 0 root y = .ok t := by
  obtain ⟨a, b, c⟩ := t
  obtain ⟨⟨a1, a2⟩, ⟨b1, b2⟩, c1, c2⟩ := ht
  obtain ⟨a', ha, ha', _⟩ := substTerm_back hr a1 a2
  obtain ⟨b', hb, hb', _⟩ := substTerm_back hr b1 b2
  obtain ⟨c', hc, hc', _⟩ := substTerm_back hr c1 c2
  dsimp only at ha hb hc ha' hb' hc'
  refine ⟨(a', b', c'), ?_, ?_⟩
  · unfold substTriple
    dsimp only
    rw [ha, hb, hc]
    rfl
  · unfold substTriple
    dsimp only
    rw [ha', hb', hc']
    rfl

/-- **C40.** Writing a list of triples with the root's IRI replaced by the zero IRI and replacing it back when reading gives the same triples, in the same
order, and neither replacement raises. Partial: the zero IRI does not occur, and no literal (or unusual spelling of an IRI) starts with the prefix of object IRIs. -/
theorem root_substitution_lossless_partial (root : Nat) (hr : root < 2 ^ 128) (ts : List Triple) (h : ∀ t ∈ ts, PlainTriple t) :
    ∃ ys, substRoot root ts = .ok ys ∧ substZero root ys = .ok ts := by
  induction ts with
  | nil => exact ⟨[], rfl, rfl⟩
  | cons t ts ih =>
    obtain ⟨y, a, b⟩ := substTriple_back hr (h t List.mem_cons_self)
    obtain ⟨ys, c, d⟩ := ih (fun t' ht' => h t' (List.mem_cons_of_mem _ ht'))
    refine ⟨y :: ys, ?_, ?_⟩
    · unfold substRoot at *
      rw [List.mapM_cons, a, c]
      rfl
    · unfold substZero at *
      rw [List.mapM_cons, b, d]
      rfl

example : PlainTriple (.iri (iriFromUid 5), .iri "http://example.org/rel".toList, .lit "some text".toList 1) := by
  have h1 : 5 < 2 ^ 128 := by decide
  refine ⟨⟨Or.inl ⟨5, h1, rfl⟩, ?_⟩, ⟨Or.inr (by decide +kernel), ?_⟩, Or.inr (by decide +kernel), ?_⟩
  · intro h
    unfold IsObj at h
    injection h with h
    exact absurd (iriFromUid_injective 5 0 h1 (by decide) h) (by decide)
  · unfold IsObj; decide +kernel
  · unfold IsObj; decide +kernel

/-- Finding: a literal that starts with the prefix makes every commit of the object fail. -/
theorem literal_with_prefix_raises :
    substRoot 7 [(.iri (iriFromUid 5), .iri "p".toList, .lit "http://www.osp-core.com/cuds/#see there".toList 1)] = .error .valueError := by
  decide +kernel

/-- Finding: a literal that is the text of the wrapper's IRI is stored as a link to the wrapper. -/
theorem literal_of_root_becomes_link :
    (substRoot 7 [(.iri (iriFromUid 5), .iri "p".toList, .lit (iriFromUid 7) 1)]).bind (substZero 7)
      = .ok [(.iri (iriFromUid 5), .iri "p".toList, .iri (iriFromUid 7))] := by
  decide +kernel

/-- Finding: the zero uid, if somebody uses it for an object, is read back as the wrapper. -/
theorem zero_uid_becomes_root :
    (substRoot 7 [(.iri (iriFromUid 0), .iri "p".toList, .iri (iriFromUid 5))]).bind (substZero 7)
      = .ok [(.iri (iriFromUid 7), .iri "p".toList, .iri (iriFromUid 5))] := by
  decide +kernel

end Osp.Iri
