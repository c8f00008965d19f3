import Verif.Camel.Props
/-!
# References, distinct names, success (C77)
-/
namespace Osp.Camel

open Osp.Yaml Osp.Names

variable {C : Conv} {ns : Text} {orig : Entries} {ans : Text → Bool}

theorem cubaWords_prefix {w p n : Text} (hp : '.' ∉ p) (hn : '.' ∉ n) (hw : w = p ++ '.' :: n) (h : w ∈ cubaWords) : lower p = "cuba".toList := by
  have h1 : ∀ w ∈ cubaWords, (splitOn '.' w).headD [] = "CUBA".toList := by decide
  have h2 := h1 w h
  rw [hw, splitOn_qualified hp hn] at h2
  have h3 : p = "CUBA".toList := h2
  rw [h3]
  decide

/-- **C77.** Definition and references fit together: the new spelling of a qualified reference to an entity of this ontology is the namespace in lower case, a dot, and the new
spelling of the name under which the entity is defined. -/
theorem references_match (hns : ns ≠ "cuba".toList) {p n : Text} (hp : '.' ∉ p) (hn : '.' ∉ n) (hl : lower p = ns) :
    newName ns orig ans (p ++ '.' :: n) = ns ++ '.' :: newName ns orig ans n := by
  have hc : p ++ '.' :: n ∉ cubaWords := fun h => hns (by rw [← hl]; exact cubaWords_prefix hp hn rfl h)
  unfold newName
  rw [splitOn_qualified hp hn, splitOn_none _ _ hn]
  show lower p ++ '.' :: camel _ n = ns ++ '.' :: camel _ n
  rw [hl]
  congr 3
  exact decide_eq_decide.2 (not_congr (isProp_own hp hn hc hl))

/-! ### different entities keep different names -/

/-- A capital letter. Specification. -/
def isBig (c : Char) : Bool := 'A' ≤ c && c ≤ 'Z'

/-- Capital letters and digits, where every underscore is followed by a capital letter. Specification. -/
def plainTail : Text → Bool
  | [] => true
  | [c] => isBig c || isDig c
  | c :: d :: t => if c = '_' then isBig d && plainTail t else (isBig c || isDig c) && plainTail (d :: t)

/-- Names like HAS_PART2. Specification. -/
def plain : Text → Bool
  | [] => false
  | c :: t => isBig c && plainTail t

theorem big_facts {c : Char} (h : isBig c = true) : c.isUpper = true ∧ c.toUpper = c ∧ c.toLower.isUpper = false ∧ c.toLower.toUpper = c ∧ c ≠ '_' ∧ c ≠ c.toLower := by
  have key : ∀ n, n < 91 → 65 ≤ n → (Char.ofNat n).isUpper = true ∧ (Char.ofNat n).toUpper = Char.ofNat n ∧ (Char.ofNat n).toLower.isUpper = false ∧
      (Char.ofNat n).toLower.toUpper = Char.ofNat n ∧ Char.ofNat n ≠ '_' ∧ Char.ofNat n ≠ (Char.ofNat n).toLower := by decide
  unfold isBig at h
  simp only [Bool.and_eq_true, decide_eq_true_eq] at h
  have h1 : 65 ≤ c.toNat := h.1
  have h2 : c.toNat ≤ 90 := h.2
  have := key c.toNat (by omega) h1
  rwa [Char.ofNat_toNat] at this

theorem digit_facts' {c : Char} (h : isDig c = true) : c.isUpper = false ∧ c.toUpper = c ∧ c.toLower = c ∧ c ≠ '_' := by
  have key : ∀ n, n < 58 → 48 ≤ n → (Char.ofNat n).isUpper = false ∧ (Char.ofNat n).toUpper = Char.ofNat n ∧ (Char.ofNat n).toLower = Char.ofNat n ∧ Char.ofNat n ≠ '_' := by decide
  unfold isDig at h
  simp only [Bool.and_eq_true, decide_eq_true_eq] at h
  have h1 : 48 ≤ c.toNat := h.1
  have h2 : c.toNat ≤ 57 := h.2
  have := key c.toNat (by omega) h1
  rwa [Char.ofNat_toNat] at this

theorem small_back {c : Char} (h : (isBig c || isDig c) = true) (t : Text) : upper (snakeTail (c.toLower :: t)) = c :: upper (snakeTail t) ∧ c ≠ '_' := by
  rw [Bool.or_eq_true] at h
  rcases h with h | h
  · obtain ⟨_, _, h3, h4, h5, _⟩ := big_facts h
    refine ⟨?_, h5⟩
    show upper ((if c.toLower.isUpper then ['_', c.toLower] else [c.toLower]) ++ snakeTail t) = _
    rw [h3]
    show c.toLower.toUpper :: upper (snakeTail t) = _
    rw [h4]
  · obtain ⟨h1, h2, h3, h4⟩ := digit_facts' h
    refine ⟨?_, h4⟩
    rw [h3]
    show upper ((if c.isUpper then ['_', c] else [c]) ++ snakeTail t) = _
    rw [h1]
    show c.toUpper :: upper (snakeTail t) = _
    rw [h2]

theorem camelTail_back : ∀ (t : Text), plainTail t = true → upper (snakeTail (camelTail false t)) = t
  | [], _ => rfl
  | [c], h => by
    obtain ⟨h1, h2⟩ := small_back (c := c) h []
    rw [camelTail, if_neg h2]
    exact h1
  | c :: d :: t, h => by
    rw [plainTail] at h
    split at h
    · rename_i hc
      subst hc
      rw [Bool.and_eq_true] at h
      obtain ⟨h1, h2, _, _, h5, _⟩ := big_facts h.1
      rw [camelTail, if_pos rfl, camelTail, if_neg h5]
      show upper ((if d.toUpper.isUpper then ['_', d.toUpper] else [d.toUpper]) ++ snakeTail (camelTail false t)) = _
      rw [h2, h1]
      show '_' :: d.toUpper :: upper (snakeTail (camelTail false t)) = _
      rw [h2, camelTail_back t h.2]
    · rename_i hc
      rw [Bool.and_eq_true] at h
      have ih := camelTail_back (d :: t) h.2
      rw [camelTail, if_neg hc]
      show upper (snakeTail (c.toLower :: camelTail false (d :: t))) = _
      rw [(small_back h.1 _).1, ih]

theorem camel_cons (up : Bool) (c : Char) (t : Text) : camel up (c :: t) = (if up then c.toUpper else c.toLower) :: camelTail false t := by
  rw [(camelTail_splitOn t).1]
  show _ :: _ = _ :: _
  cases splitOn '_' t <;> rfl

/-- **C77.** Different plain names are spelled differently, whatever their first letters become: no two definitions of an ontology with plain names fall together. -/
theorem camel_injective (u v : Bool) (m n : Text) (hm : plain m = true) (hn : plain n = true) (h : camel u m = camel v n) : m = n ∧ u = v := by
  cases m with
  | nil => cases hm
  | cons c s =>
    cases n with
    | nil => cases hn
    | cons d t =>
      unfold plain at hm hn
      rw [Bool.and_eq_true] at hm hn
      rw [camel_cons, camel_cons] at h
      injection h with h1 h2
      have h3 : s = t := by rw [← camelTail_back s hm.2, h2, camelTail_back t hn.2]
      obtain ⟨c1, c2, c3, c4, _, c6⟩ := big_facts hm.1
      obtain ⟨d1, d2, d3, d4, _, d6⟩ := big_facts hn.1
      cases u <;> cases v
      · have h1 : c.toLower = d.toLower := h1
        exact ⟨by rw [h3, ← c4, h1, d4], rfl⟩
      · have h1 : c.toLower = d.toUpper := h1
        rw [d2] at h1
        rw [h1, d1] at c3
        cases c3
      · have h1 : c.toUpper = d.toLower := h1
        rw [c2] at h1
        rw [← h1, c1] at d3
        cases d3
      · have h1 : c.toUpper = d.toUpper := h1
        rw [c2, d2] at h1
        exact ⟨by rw [h3, h1], rfl⟩

theorem plain_nodot {n : Text} (h : plain n = true) : '.' ∉ n := by
  have key : ∀ t, plainTail t = true → '.' ∉ t := by
    intro t
    induction t using plainTail.induct with
    | case1 => intro _ h; cases h
    | case2 c =>
      intro h hm
      simp only [List.mem_cons, List.not_mem_nil, or_false] at hm
      subst hm
      revert h
      decide
    | case3 d t ih =>
      intro h hm
      rw [plainTail, if_pos rfl, Bool.and_eq_true] at h
      rcases List.mem_cons.1 hm with hm | hm
      · exact absurd hm (by decide)
      · rcases List.mem_cons.1 hm with hm | hm
        · rw [← hm] at h
          exact absurd h.1 (by decide)
        · exact ih h.2 hm
    | case4 c d t hc ih =>
      intro h hm
      rw [plainTail, if_neg hc, Bool.and_eq_true] at h
      rcases List.mem_cons.1 hm with hm | hm
      · rw [← hm] at h
        exact absurd h.1 (by decide)
      · exact ih h.2 hm
  cases n with
  | nil => cases h
  | cons c t =>
    unfold plain at h
    rw [Bool.and_eq_true] at h
    intro hm
    rcases List.mem_cons.1 hm with hm | hm
    · rw [← hm] at h
      exact absurd h.1 (by decide)
    · exact key t h.2 hm

/-- **C77.** Different plain names of an ontology get different new names. -/
theorem newName_injective (m n : Text) (hm : plain m = true) (hn : plain n = true) (h : newName ns orig ans m = newName ns orig ans n) : m = n := by
  unfold newName at h
  rw [splitOn_none _ _ (plain_nodot hm), splitOn_none _ _ (plain_nodot hn)] at h
  exact (camel_injective _ _ m n hm hn h).1

/-- The key of a definition after the renaming. Specification. -/
def newKey (f : Text → Text) (k : Text) : Text := if namePat.matches k then f k else k

theorem dictOf_append (a b : Entries) (h : ∀ e ∈ b, ∃ k, e.1 = .str k) (hn : ((a ++ b).map (·.1)).Nodup) : b.foldl put a = a ++ b := by
  induction b generalizing a with
  | nil => simp
  | cons e b ih =>
    obtain ⟨k, hk⟩ := h e (List.mem_cons_self ..)
    have hput : put a e = a ++ [e] := by
      unfold put
      rw [hk]
      simp only
      rw [if_neg]
      intro hany
      obtain ⟨x, hx, hx2⟩ := List.any_eq_true.1 hany
      rw [isKey_iff] at hx2
      rw [List.map_append] at hn
      exact (List.nodup_append.1 hn).2.2 x.1 (List.mem_map_of_mem hx) e.1 (by simp) (by rw [hx2, hk])
    rw [List.foldl_cons, hput, ih (a ++ [e]) (fun x hx => h x (List.mem_cons_of_mem _ hx)) (by simpa using hn)]
    simp

theorem get_of_mem {l : Entries} (hn : (l.map (·.1)).Nodup) {k : Text} {v : Yaml} (h : (.str k, v) ∈ l) : Yaml.get l k = some v := by
  induction l with
  | nil => cases h
  | cons e l ih =>
    rw [get_cons]
    rw [List.map_cons, List.nodup_cons] at hn
    rcases List.mem_cons.1 h with h | h
    · rw [← h]
      simp [isKey]
    · have : isKey k e.1 = false := by
        cases hb : isKey k e.1 with
        | false => rfl
        | true =>
          rw [isKey_iff] at hb
          exact absurd (by rw [hb]; exact List.mem_map_of_mem (f := (·.1)) h) hn.1
      rw [this]
      exact ih hn.2 h

theorem mem_renameE {f : Text → Text} {top : Bool} {l : List (Yaml × Yaml)} {e : Yaml × Yaml} : e ∈ renameE f top l ↔ ∃ x ∈ l, e = renameEntry f top x.1 x.2 := by
  induction l with
  | nil => simp [renameE]
  | cons x l ih =>
    obtain ⟨k, v⟩ := x
    rw [renameE_cons, List.mem_cons, ih]
    constructor
    · rintro (h | ⟨x, hx, h⟩)
      · exact ⟨(k, v), List.mem_cons_self .., h⟩
      · exact ⟨x, List.mem_cons_of_mem _ hx, h⟩
    · rintro ⟨x, hx, h⟩
      rcases List.mem_cons.1 hx with hx | hx
      · subst hx; exact Or.inl h
      · exact Or.inr ⟨x, hx, h⟩

/-- **C77.** If the keys are texts whose new spellings differ, then no definition is lost: every entity is defined under its new name, by its converted definition, in the same order. -/
theorem definitions_kept_partial (f : Text → Text) (onto : Entries) (names : List Text) (hk : onto.map (·.1) = names.map .str) (hd : (names.map (newKey f)).Nodup) :
    ∃ onto', rename f true (.dict onto) = .dict onto' ∧ onto'.map (·.1) = names.map (fun k => .str (newKey f k)) ∧
      ∀ k v, (.str k, v) ∈ onto → namePat.matches k = true → Yaml.get onto' (f k) = some (rename f false v) := by
  have hkeys : ∀ (onto : Entries) (names : List Text), onto.map (·.1) = names.map Yaml.str → (renameE f true onto).map (·.1) = names.map (fun k => Yaml.str (newKey f k)) := by
    intro onto
    induction onto with
    | nil =>
      intro names h
      cases names with
      | nil => rfl
      | cons n names => cases h
    | cons e onto ih =>
      intro names h
      obtain ⟨k, v⟩ := e
      cases names with
      | nil => cases h
      | cons n names =>
        rw [List.map_cons, List.map_cons] at h
        injection h with h1 h2
        have h1 : k = .str n := h1
        subst h1
        rw [renameE_cons, List.map_cons, List.map_cons, ih names h2]
        congr 1
        have hkn : keyName true (.str n) = if namePat.matches n = true then some n else none := rfl
        unfold renameEntry newKey
        rw [hkn]
        by_cases hm : namePat.matches n = true
        · rw [if_pos hm, if_pos hm]
        · rw [if_neg hm, if_neg hm]
  have hkeys := hkeys onto names hk
  have hnd : ((renameE f true onto).map (·.1)).Nodup := by
    rw [hkeys]
    have : names.map (fun k => Yaml.str (newKey f k)) = (names.map (newKey f)).map Yaml.str := by rw [List.map_map]; rfl
    rw [this]
    exact List.Pairwise.map Yaml.str (fun a b hab h => hab (by injection h)) hd
  have hdict : dictOf (renameE f true onto) = renameE f true onto := by
    have := dictOf_append [] (renameE f true onto) (by
      intro e he
      have : e.1 ∈ (renameE f true onto).map (·.1) := List.mem_map_of_mem he
      rw [hkeys] at this
      obtain ⟨k, _, h⟩ := List.mem_map.1 this
      exact ⟨_, h.symm⟩) (by simpa using hnd)
    simpa [dictOf] using this
  refine ⟨renameE f true onto, ?_, hkeys, ?_⟩
  · rw [rename, hdict]
  · intro k v hm hmatch
    apply get_of_mem hnd
    refine mem_renameE.2 ⟨_, hm, ?_⟩
    have hkn : keyName true (.str k) = if namePat.matches k = true then some k else none := rfl
    unfold renameEntry
    rw [hkn, if_pos hmatch]

/-! ### when the conversion succeeds -/

theorem anyIs_succeeds {f : Text → Asked → Run (Option Bool × Asked)} (b : Bool) (l : List Yaml) (hs : ∀ x ∈ l, isStr x = true) (hf : ∀ w, .str w ∈ l → ∀ s, ∃ r, f w s = .ok r) :
    ∀ s, ∃ r, anyIs f b l s = .ok r := by
  induction l with
  | nil => exact fun s => ⟨_, rfl⟩
  | cons x l ih =>
    intro s
    obtain ⟨w, rfl⟩ : ∃ w, x = .str w := by
      have := hs x (List.mem_cons_self ..)
      cases x <;> first
        | exact ⟨_, rfl⟩
        | cases this
    obtain ⟨⟨r, s1⟩, hr⟩ := hf w (List.mem_cons_self ..) s
    rw [anyIs, hr]
    simp only
    split
    · exact ⟨_, rfl⟩
    · exact ih (fun x hx => hs x (List.mem_cons_of_mem _ hx)) (fun w hw => hf w (List.mem_cons_of_mem _ hw)) s1

theorem caps_succeeds {k : Nat} {w : Text} (h : Reaches C.ns C.orig k w) : ∀ (m : Nat), k < m → ∀ i s, ∃ r, caps C m i w s = .ok r := by
  induction h with
  | cuba hw =>
    intro m hm i s
    obtain ⟨m, rfl⟩ : ∃ m', m = m' + 1 := ⟨m - 1, by omega⟩
    unfold caps
    rw [mem_cubaWords] at hw
    split
    · exact ⟨_, rfl⟩
    · split
      · exact ⟨_, rfl⟩
      · rename_i h1 h2
        rcases hw with hw | hw | hw
        · rw [if_pos hw]; exact ⟨_, rfl⟩
        · exact absurd hw h1
        · exact absurd hw h2
  | foreign hp hn hl =>
    intro m hm i s
    obtain ⟨m, rfl⟩ : ∃ m', m = m' + 1 := ⟨m - 1, by omega⟩
    unfold caps
    repeat (split; exact ⟨_, rfl⟩)
    rw [if_pos (dot_mem _ _), splitOn_qualified hp hn]
    simp only
    rw [if_neg hl]
    exact ⟨_, rfl⟩
  | own hp hn hl _ ih =>
    intro m hm i s
    obtain ⟨m, rfl⟩ : ∃ m', m = m' + 1 := ⟨m - 1, by omega⟩
    unfold caps
    repeat (split; exact ⟨_, rfl⟩)
    rw [if_pos (dot_mem _ _), splitOn_qualified hp hn]
    simp only
    rw [if_pos hl]
    obtain ⟨⟨x, s1⟩, hr⟩ := ih m (by omega) true s
    rw [hr]
    exact ⟨_, rfl⟩
  | @super _ _ l hn hd hx _ ih =>
    intro m hm i s
    obtain ⟨m, rfl⟩ : ∃ m', m = m' + 1 := ⟨m - 1, by omega⟩
    unfold caps
    rw [superclasses_ok.2 hd, if_neg hn]
    repeat (split; exact ⟨_, rfl⟩)
    simp only
    split
    · exact ⟨_, rfl⟩
    · rename_i hnd
      have hs : ∀ x ∈ l, isStr x = true := by
        intro x hxl
        rcases hx x hxl with h | h
        · exact absurd (List.any_eq_true.2 ⟨x, hxl, h⟩) hnd
        · exact h
      have hf : ∀ w, .str w ∈ l → ∀ s, ∃ r, caps C m true w s = .ok r := fun w hw s => ih w hw m (by omega) true s
      obtain ⟨⟨b1, s1⟩, h1⟩ := anyIs_succeeds (f := caps C m true) false l hs hf s
      rw [h1]
      cases b1 with
      | true => exact ⟨_, rfl⟩
      | false =>
        simp only
        obtain ⟨⟨b2, s2⟩, h2⟩ := anyIs_succeeds (f := caps C m true) true l hs hf s1
        rw [h2]
        cases b2 <;> exact ⟨_, rfl⟩

theorem capsRe_iff (t : Text) : Lang capsRe t ↔ ∃ c u, t = c :: u ∧ isCap c = true ∧ ∀ d ∈ u, isCapChar d = true := by
  rw [capsRe, lang_seq]
  constructor
  · rintro ⟨a, b, rfl, h1, h2⟩
    obtain ⟨c, rfl, hc⟩ := (lang_cls _ _).1 h1
    exact ⟨c, b, rfl, hc, (lang_star_cls _ _).1 h2⟩
  · rintro ⟨c, u, rfl, hc, hu⟩
    exact ⟨[c], u, rfl, (lang_cls _ _).2 ⟨c, rfl, hc⟩, (lang_star_cls _ _).2 hu⟩

theorem cap_char {c : Char} (h : isCap c = true) : isCapChar c = true := by unfold isCapChar; rw [h]; rfl

theorem capsRe_chars {t : Text} (h : Lang capsRe t) : t ≠ [] ∧ ∀ d ∈ t, isCapChar d = true := by
  obtain ⟨c, u, rfl, hc, hu⟩ := (capsRe_iff t).1 h
  refine ⟨by simp, fun d hd => ?_⟩
  rcases List.mem_cons.1 hd with hd | hd
  · rw [hd]; exact cap_char hc
  · exact hu d hd

theorem capsRe_last {t : Text} (h : Lang capsRe t) (a p : Text) : a ++ t ≠ p ++ ['.'] := by
  obtain ⟨h1, h2⟩ := capsRe_chars h
  intro he
  have hl := congrArg List.getLast? he
  obtain ⟨x, hx⟩ : ∃ x, t.getLast? = some x := by
    cases ht : t.getLast? with
    | none => exact absurd (List.getLast?_eq_none_iff.1 ht) h1
    | some x => exact ⟨x, rfl⟩
  rw [List.getLast?_append, hx, List.getLast?_concat] at hl
  have hl : some x = some '.' := hl
  rw [hl] at hx
  have hl := hx
  have := h2 '.' (List.mem_of_getLast? hl)
  revert this
  decide

/-- A text that is renamed does not end with a dot and is not empty. -/
theorem renamed_not_dotted {top : Bool} {w : Text} (h : (pattern top).matches w = true) : w ≠ [] ∧ ∀ p, w ≠ p ++ ['.'] := by
  rw [matches_iff] at h
  have key : ∀ u, Lang (if top then capsRe else .seq capsRe (.seq (.chr '.') capsRe)) u → u ≠ [] ∧ ∀ p, u ≠ p ++ ['.'] := by
    intro u hu
    cases top with
    | true => exact ⟨(capsRe_chars hu).1, fun p => capsRe_last hu [] p⟩
    | false =>
      obtain ⟨a, b, rfl, h1, h2⟩ := (lang_seq _ _ _).1 hu
      obtain ⟨c, d, rfl, h3, h4⟩ := (lang_seq _ _ _).1 h2
      refine ⟨fun hk => (capsRe_chars h1).1 (List.append_eq_nil_iff.1 hk).1, fun p => ?_⟩
      rw [← List.append_assoc]
      exact capsRe_last h4 _ p
  have h : Lang (if top then capsRe else .seq capsRe (.seq (.chr '.') capsRe)) w ∨ ∃ u, w = u ++ ['\n'] ∧ Lang (if top then capsRe else .seq capsRe (.seq (.chr '.') capsRe)) u := by
    cases top <;> exact h
  rcases h with h | ⟨u, rfl, h⟩
  · exact key w h
  · refine ⟨by simp, fun p he => ?_⟩
    have hl := congrArg List.getLast? he
    rw [List.getLast?_concat, List.getLast?_concat] at hl
    injection hl with hl
    exact absurd hl (by decide)

theorem plain_matches {n : Text} (h : plain n = true) : namePat.matches n = true := by
  have key : ∀ t, plainTail t = true → ∀ d ∈ t, isCapChar d = true := by
    have one : ∀ c, (isBig c || isDig c) = true → isCapChar c = true := by
      intro c hc
      rw [Bool.or_eq_true] at hc
      unfold isCapChar isCap
      rcases hc with hc | hc
      · unfold isBig at hc
        rw [hc]; rfl
      · unfold isDig at hc
        rw [hc, Bool.or_true]
    have big : ∀ c, isBig c = true → isCapChar c = true := fun c hc => one c (by rw [hc]; rfl)
    intro t
    induction t using plainTail.induct with
    | case1 => intro _ d hd; cases hd
    | case2 c =>
      intro h d hd
      simp only [List.mem_cons, List.not_mem_nil, or_false] at hd
      rw [hd]
      exact one c h
    | case3 d t ih =>
      intro h x hx
      rw [plainTail, if_pos rfl, Bool.and_eq_true] at h
      rcases List.mem_cons.1 hx with hx | hx
      · rw [hx]; decide
      · rcases List.mem_cons.1 hx with hx | hx
        · rw [hx]; exact big d h.1
        · exact ih h.2 x hx
    | case4 c d t hc ih =>
      intro h x hx
      rw [plainTail, if_neg hc, Bool.and_eq_true] at h
      rcases List.mem_cons.1 hx with hx | hx
      · rw [hx]; exact one c h.1
      · exact ih h.2 x hx
  cases n with
  | nil => cases h
  | cons c t =>
    unfold plain at h
    rw [Bool.and_eq_true] at h
    refine (matches_iff namePat _).2 (Or.inl ((capsRe_iff _).2 ⟨c, t, rfl, ?_, key t h.2⟩))
    have := h.1
    unfold isBig at this
    unfold isCap
    rw [this]; rfl

/-- **C77.** In an ontology with different plain names every entity is defined, after the conversion, under its new name by its converted definition, whatever the user answers. -/
theorem entities_kept_partial (onto : Entries) (names : List Text) (hk : onto.map (·.1) = names.map .str) (hp : ∀ n ∈ names, plain n = true) (hd : names.Nodup) :
    ∃ onto', rename (newName ns orig ans) true (.dict onto) = .dict onto' ∧ onto'.map (·.1) = names.map (fun k => .str (newName ns orig ans k)) ∧
      ∀ k v, (.str k, v) ∈ onto → Yaml.get onto' (newName ns orig ans k) = some (rename (newName ns orig ans) false v) := by
  have hnk : ∀ n ∈ names, newKey (newName ns orig ans) n = newName ns orig ans n := by
    intro n hn
    unfold newKey
    rw [if_pos (plain_matches (hp n hn))]
  have hmap : names.map (newKey (newName ns orig ans)) = names.map (newName ns orig ans) := List.map_congr_left hnk
  have hnd : (names.map (newKey (newName ns orig ans))).Nodup := by
    rw [hmap]
    clear hmap hnk hk
    induction names with
    | nil => exact List.nodup_nil
    | cons n names ih =>
      rw [List.nodup_cons] at hd
      rw [List.map_cons, List.nodup_cons]
      refine ⟨fun hm => ?_, ih (fun m hm => hp m (List.mem_cons_of_mem _ hm)) hd.2⟩
      obtain ⟨m, hm, he⟩ := List.mem_map.1 hm
      have := newName_injective m n (hp m (List.mem_cons_of_mem _ hm)) (hp n (List.mem_cons_self ..)) he
      exact hd.1 (by rw [← this]; exact hm)
  obtain ⟨onto', h1, h2, h3⟩ := definitions_kept_partial (newName ns orig ans) onto names hk hnd
  refine ⟨onto', h1, ?_, ?_⟩
  · rw [h2]
    apply List.map_congr_left
    intro n hn
    rw [hnk n hn]
  · intro k v hm
    have : Yaml.str k ∈ onto.map (·.1) := List.mem_map_of_mem hm
    rw [hk] at this
    obtain ⟨n, hn, he⟩ := List.mem_map.1 this
    injection he with he
    subst he
    exact h3 n v hm (plain_matches (hp n hn))

theorem toCamelCase_succeeds {k : Nat} {top : Bool} {w : Text} (h : Reaches C.ns C.orig k w) (hk : k < C.limit) (hw : (pattern top).matches w = true) (s : Asked) :
    ∃ r, toCamelCase C w s = .ok r := by
  obtain ⟨⟨b, s1⟩, hr⟩ := caps_succeeds h C.limit hk false s
  obtain ⟨hne, hdot⟩ := renamed_not_dotted hw
  have hspell : ∀ up (n : Text), n ≠ [] → ∃ t, spell up n = .ok t := by
    intro up n hn
    cases n with
    | nil => exact absurd rfl hn
    | cons c n => exact ⟨_, rfl⟩
  unfold toCamelCase
  rw [hr]
  simp only
  split
  · rename_i hd
    obtain ⟨a, c, rfl, ha⟩ := first_split '.' w hd
    rw [splitOn_append _ _ _ ha]
    obtain ⟨n, rest, hn⟩ : ∃ n rest, splitOn '.' c = n :: rest := by
      cases hc : splitOn '.' c with
      | nil => exact absurd hc (splitOn_ne_nil _ _)
      | cons n rest => exact ⟨n, rest, rfl⟩
    rw [hn]
    simp only
    have hnn : n ≠ [] := by
      rintro rfl
      cases rest with
      | nil =>
        have := splitOn_one hn
        rw [this.1] at hdot
        exact hdot a rfl
      | cons q rest =>
        -- a name with two dots has been refused
        exfalso
        have hs : splitOn '.' (a ++ '.' :: c) = a :: [] :: q :: rest := by rw [splitOn_append _ _ _ ha, hn]
        have hlen : ∀ w ∈ cubaWords, (splitOn '.' w).length = 2 := by decide
        generalize a ++ '.' :: c = w at h hs
        cases h with
        | cuba hw => have := hlen w hw; rw [hs] at this; simp at this
        | foreign h1 h2 _ => rw [splitOn_qualified h1 h2] at hs; cases hs
        | own h1 h2 _ _ => rw [splitOn_qualified h1 h2] at hs; cases hs
        | super h1 _ _ _ => rw [splitOn_none _ _ h1] at hs; cases hs
    obtain ⟨t, ht⟩ := hspell (b == some true) n hnn
    rw [ht]
    exact ⟨_, rfl⟩
  · obtain ⟨t, ht⟩ := hspell (b == some true) w hne
    rw [ht]
    exact ⟨_, rfl⟩

theorem leaf_succeeds {k : Nat} (hk : k < C.limit) (top : Bool) (t : Text) (s : Asked) (h : t ≠ cubaEntity → (pattern top).matches t = true → Reaches C.ns C.orig k t) :
    ∃ r, leaf C top t s = .ok r := by
  unfold leaf
  split
  · exact ⟨_, rfl⟩
  · rename_i hc
    split
    · rename_i hm
      obtain ⟨r, hr⟩ := toCamelCase_succeeds (h hc hm) hk hm s
      rw [hr]
      exact ⟨_, rfl⟩
    · exact ⟨_, rfl⟩

theorem mentionsL_cons (top : Bool) (x : Yaml) (l : List Yaml) (hx : isStr x = false) : mentionsL top (x :: l) = mentions false x ++ mentionsL top l := by
  cases x <;> first
    | rfl
    | cases hx

/-- Proof device: the names in a value. -/
def mentionsItem (top : Bool) (v : Yaml) : List Text := match v with
  | .str t => if t ≠ cubaEntity ∧ (pattern top).matches t = true then [t] else []
  | v => mentions false v

/-- Proof device: the names in an entry. -/
def mentionsEntry (top : Bool) (k v : Yaml) : List Text := match keyName top k with
  | some t => t :: mentions false v
  | none => mentionsItem top v

theorem mentionsE_cons (top : Bool) (k v : Yaml) (l : List (Yaml × Yaml)) : mentionsE top ((k, v) :: l) = mentionsEntry top k v ++ mentionsE top l := by
  by_cases hk : ∃ t, k = .str t
  case neg => cases k <;> first
    | exact absurd ⟨_, rfl⟩ hk
    | (cases v <;> rfl)
  obtain ⟨t, rfl⟩ := hk
  have e : mentionsEntry top (.str t) v = if (pattern top).matches t = true then t :: mentions false v else mentionsItem top v := by
    have hk : keyName top (.str t) = if (pattern top).matches t = true then some t else none := rfl
    unfold mentionsEntry
    rw [hk]
    by_cases h : (pattern top).matches t = true
    · rw [if_pos h, if_pos h]
    · rw [if_neg h, if_neg h]
  rw [e]
  cases v <;> rw [mentionsE] <;> first
    | rfl
    | (intro t h; cases h)

mutual
theorem nested_succeeds {k : Nat} (hk : k < C.limit) (top : Bool) : ∀ (d : Yaml) (s : Asked), (∀ w ∈ mentions top d, Reaches C.ns C.orig k w) → ∃ r, nested C top d s = .ok r
  | .list l, s, h => by
    obtain ⟨⟨l', s1⟩, hr⟩ := nestedL_succeeds hk top l s h
    rw [nested, hr]
    exact ⟨_, rfl⟩
  | .dict l, s, h => by
    obtain ⟨⟨l', s1⟩, hr⟩ := nestedE_succeeds hk top l s h
    rw [nested, hr]
    exact ⟨_, rfl⟩
  | .null, s, h => ⟨_, rfl⟩
  | .bool _, s, h => ⟨_, rfl⟩
  | .int _, s, h => ⟨_, rfl⟩
  | .float _, s, h => ⟨_, rfl⟩
  | .str _, s, h => ⟨_, rfl⟩
  | .other, s, h => ⟨_, rfl⟩
theorem nestedL_succeeds {k : Nat} (hk : k < C.limit) (top : Bool) : ∀ (l : List Yaml) (s : Asked), (∀ w ∈ mentionsL top l, Reaches C.ns C.orig k w) → ∃ r, nestedL C top l s = .ok r
  | [], s, h => ⟨_, rfl⟩
  | x :: l, s, h => by
    have h2 : ∀ w ∈ mentionsL top l, Reaches C.ns C.orig k w := by
      intro w hw
      apply h
      by_cases hx : isStr x = true
      · cases x <;> first
          | (cases hx; done)
          | exact List.mem_append.2 (Or.inr hw)
      · rw [mentionsL_cons _ _ _ (by simpa using hx)]
        exact List.mem_append.2 (Or.inr hw)
    obtain ⟨⟨x', s1⟩, hx⟩ : ∃ r, item C top x s (nested C false x s) = .ok r := by
      have hn := fun hm => nested_succeeds hk false x s hm
      by_cases hs : isStr x = true
      · cases x <;> try (cases hs; done)
        rename_i t
        refine leaf_succeeds hk top t s (fun h1 h3 => h t ?_)
        refine List.mem_append.2 (Or.inl ?_)
        rw [if_pos ⟨h1, h3⟩]
        exact List.mem_cons_self ..
      · have hs : isStr x = false := by simpa using hs
        have := hn (fun w hw => h w (by rw [mentionsL_cons _ _ _ hs]; exact List.mem_append.2 (Or.inl hw)))
        cases x <;> first
          | (cases hs; done)
          | exact this
    obtain ⟨⟨l', s2⟩, hl⟩ := nestedL_succeeds hk top l s1 h2
    rw [nestedL, hx]
    simp only [hl]
    exact ⟨_, rfl⟩
theorem nestedE_succeeds {k : Nat} (hk : k < C.limit) (top : Bool) : ∀ (l : List (Yaml × Yaml)) (s : Asked), (∀ w ∈ mentionsE top l, Reaches C.ns C.orig k w) →
    ∃ r, nestedE C top l s = .ok r
  | [], s, h => ⟨_, rfl⟩
  | (key, v) :: l, s, h => by
    rw [mentionsE_cons] at h
    have h1 : ∀ w ∈ mentionsEntry top key v, Reaches C.ns C.orig k w := fun w hw => h w (List.mem_append.2 (Or.inl hw))
    have h2 : ∀ w ∈ mentionsE top l, Reaches C.ns C.orig k w := fun w hw => h w (List.mem_append.2 (Or.inr hw))
    obtain ⟨⟨e', s1⟩, he⟩ : ∃ r, entry C top key v s (nested C false v) = .ok r := by
      have hn := fun s hm => nested_succeeds hk false v s hm
      unfold entry
      unfold mentionsEntry at h1
      cases hkn : keyName top key with
      | some t =>
        rw [hkn] at h1
        simp only at h1 ⊢
        have hm : (pattern top).matches t = true := by
          cases key <;> try (cases hkn; done)
          rename_i t0
          have hk : keyName top (.str t0) = if (pattern top).matches t0 = true then some t0 else none := rfl
          rw [hk] at hkn
          split at hkn
          · rename_i hm
            injection hkn with hkn
            rw [← hkn]
            exact hm
          · cases hkn
        obtain ⟨⟨t', s2⟩, ht⟩ := toCamelCase_succeeds (h1 t (List.mem_cons_self ..)) hk hm s
        rw [ht]
        simp only
        obtain ⟨⟨v', s3⟩, hv⟩ := hn s2 (fun w hw => h1 w (List.mem_cons_of_mem _ hw))
        rw [hv]
        exact ⟨_, rfl⟩
      | none =>
        rw [hkn] at h1
        simp only at h1 ⊢
        obtain ⟨⟨v', s2⟩, hv⟩ : ∃ r, item C top v s (nested C false v s) = .ok r := by
          by_cases hs : isStr v = true
          · cases v <;> try (cases hs; done)
            rename_i t
            refine leaf_succeeds hk top t s (fun h3 h4 => h1 t ?_)
            show t ∈ if _ then _ else _
            rw [if_pos ⟨h3, h4⟩]
            exact List.mem_cons_self ..
          · have hs : isStr v = false := by simpa using hs
            cases v <;> first
              | (cases hs; done)
              | exact hn s h1
        rw [hv]
        exact ⟨_, rfl⟩
    obtain ⟨⟨l', s2⟩, hl⟩ := nestedE_succeeds hk top l s1 h2
    rw [nestedE, he]
    simp only [hl]
    exact ⟨_, rfl⟩
end

theorem lowerAll_succeeds {l : List Yaml} (h : ∀ x ∈ l, isStr x = true) : ∃ l', lowerAll l = .ok l' := by
  induction l with
  | nil => exact ⟨_, rfl⟩
  | cons x l ih =>
    obtain ⟨l', hl⟩ := ih (fun y hy => h y (List.mem_cons_of_mem _ hy))
    have hx := h x (List.mem_cons_self ..)
    cases x <;> try (cases hx; done)
    rw [lowerAll, hl]
    exact ⟨_, rfl⟩

/-- **C77.** If the superclasses of all entities that occur in the document lead to entities of cuba or of other namespaces, in fewer steps than Python allows, the conversion succeeds,
whatever the user answers. -/
theorem converts_partial (answers : Nat → Bool) (limit : Nat) (doc : Entries) (ns : Text) (onto : Entries) (hns : Yaml.get doc nsKey = some (.str ns))
    (ho : Yaml.get doc ontoKey = some (.dict onto)) (hr : Yaml.get doc reqKey = none ∨ ∃ l, Yaml.get doc reqKey = some (.list l) ∧ ∀ x ∈ l, isStr x = true)
    (k : Nat) (hk : k < limit) (h : ∀ w ∈ mentions true (.dict onto), Reaches (lower ns) onto k w) : ∃ r, convert answers limit doc = .ok r := by
  obtain ⟨⟨o', s⟩, hn⟩ := nested_succeeds (C := ⟨lower ns, onto, answers, limit⟩) hk true (.dict onto) [] h
  have hi : init answers limit doc = .ok ⟨lower ns, onto, answers, limit⟩ := by
    unfold init
    rw [ho, hns]
  unfold convert
  rw [hi]
  simp only
  rcases hr with hr | ⟨l, hr, hl⟩
  · rw [hr]
    simp only [hn]
    exact ⟨_, rfl⟩
  · obtain ⟨l', hl'⟩ := lowerAll_succeeds hl
    rw [hr]
    simp only [hl', hn]
    exact ⟨_, rfl⟩

end Osp.Camel
