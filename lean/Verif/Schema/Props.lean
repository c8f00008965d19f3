import Verif.Schema.Model
/-!
# Cardinalities and schema validation: specification and theorems (C47, C48)
-/
namespace Osp.Schema

/-! ### specification -/

/-- The documented forms of a cardinality. -/
inductive Form where
  | arbitrary
  | exactly (a : Nat)
  | between (a b : Nat)
  | atLeast (a : Nat)

/-- How they are written in the YAML file: nothing, `a`, `a-b`, `a+`. -/
def Form.yaml : Form → Constraints
  | .arbitrary => none
  | .exactly a => some (.int a)
  | .between a b => some (.str (dec a ++ '-' :: dec b))
  | .atLeast a => some (.str (dec a ++ ['+']))

/-- What they mean. -/
def Form.Allows : Form → Nat → Prop
  | .arbitrary, _ => True
  | .exactly a, n => n = a
  | .between a b, n => a ≤ n ∧ n ≤ b
  | .atLeast a, n => a ≤ n

/-- A schema with documented cardinalities. -/
abbrev Doc := List (Text × Option (List (Text × List (Text × Form))))

/-- The YAML document. -/
def Doc.yaml (S : Doc) : Schema := S.map (fun e => (e.1, e.2.map (fun rels => rels.map (fun r => (r.1, r.2.map (fun n => (n.1, n.2.yaml)))))))

/-- The schema says: objects of class `c` have by relationship `r` a number of objects of class `d` as `f` allows. -/
def Constrains (S : Doc) (c r d : Text) (f : Form) : Prop := ∃ rels nbs, (c, some rels) ∈ S ∧ (r, nbs) ∈ rels ∧ (d, f) ∈ nbs

/-- Reachable by `iter()`. -/
inductive Reach (W : World) : Nat → Nat → Prop
  | refl (o : Nat) : Reach W o o
  | step {o c x : Nat} : c ∈ W.children o → Reach W c x → Reach W o x

/-- The paths below an object have at most `n` objects. -/
def Depth (W : World) : Nat → Nat → Prop
  | 0, _ => False
  | n + 1, o => ∀ c ∈ W.children o, Depth W n c

/-- The object satisfies the constraints of its class. -/
def Conforms (W : World) (S : Doc) (o : Nat) : Prop := ∀ r d f, Constrains S (W.cls o) r d f → ∀ n, W.count o r d = .ok n → f.Allows n

/-- A class is optional in one place and needed in another. -/
def Contradictory (S : Doc) : Prop := ∃ d, (∃ c r f, Constrains S c r d f ∧ f.Allows 0) ∧ ∃ c r f, Constrains S c r d f ∧ ¬ f.Allows 0

/-- A class of the schema of which there must be an object: it has no relationships, is needed somewhere, or is optional nowhere. -/
def Required (S : Doc) (k : Text) : Prop :=
  ∃ e, (k, e) ∈ S ∧ (e = none ∨ e = some [] ∨ (∃ c r f, Constrains S c r k f ∧ ¬ f.Allows 0) ∨ ¬ ∃ c r f, Constrains S c r k f ∧ f.Allows 0)

/-- Some required class has no object in the tree. -/
def Incomplete (W : World) (S : Doc) (root : Nat) : Prop := ∃ k, Required S k ∧ ∀ o, Reach W root o → W.cls o ≠ k

/-! ### cardinalities -/

theorem dec_no {n : Nat} {c : Char} (hc : c = '-' ∨ c = '+') : c ∉ dec n := by
  intro h
  obtain ⟨k, hk, e⟩ := dec_digits n c h
  have f := digit_facts k hk
  rcases hc with rfl | rfl
  · exact f.2.2.1 e.symm
  · exact f.2.2.2.1 e.symm

def Form.bounds : Form → Int × Option Int
  | .arbitrary => (0, none)
  | .exactly a => (a, some a)
  | .between a b => (a, some b)
  | .atLeast a => (a, none)

theorem interpret_yaml (f : Form) : interpret f.yaml = .ok f.bounds := by
  cases f with
  | arbitrary => rfl
  | exactly a => rfl
  | between a b =>
    have h : splitOn '-' (dec a ++ '-' :: dec b) = [dec a, dec b] := by
      rw [splitOn_append _ _ _ (dec_no (Or.inl rfl)), splitOn_none _ _ (dec_no (Or.inl rfl))]
    simp [Form.yaml, interpret, h, readInt, pyInt_dec, Form.bounds]
  | atLeast a =>
    have h : splitOn '+' (dec a ++ ['+']) = [dec a, []] := by
      rw [splitOn_append _ _ _ (dec_no (Or.inr rfl))]; rfl
    simp [Form.yaml, interpret, h, readInt, pyInt_dec, Form.bounds, dec_no (n := a) (Or.inl rfl)]

theorem outside_bounds (f : Form) (n : Nat) : outside n f.bounds = false ↔ f.Allows n := by
  cases f with
  | arbitrary =>
    refine ⟨fun _ => trivial, fun _ => ?_⟩
    have : ¬ ((n : Int) < 0) := by omega
    simp [outside, Form.bounds, this]
  | exactly a =>
    show (decide ((n : Int) < (a : Int)) || decide ((a : Int) < (n : Int))) = false ↔ n = a
    rw [Bool.or_eq_false_iff, decide_eq_false_iff_not, decide_eq_false_iff_not]; omega
  | between a b =>
    show (decide ((n : Int) < (a : Int)) || decide ((b : Int) < (n : Int))) = false ↔ a ≤ n ∧ n ≤ b
    rw [Bool.or_eq_false_iff, decide_eq_false_iff_not, decide_eq_false_iff_not]; omega
  | atLeast a =>
    show (decide ((n : Int) < (a : Int)) || false) = false ↔ a ≤ n
    rw [Bool.or_false, decide_eq_false_iff_not]; omega

theorem bounds_zero (f : Form) : f.bounds.1 = 0 ↔ f.Allows 0 := by
  cases f <;> simp [Form.bounds, Form.Allows] <;> try omega

theorem bounds_pos (f : Form) : f.bounds.1 > 0 ↔ ¬ f.Allows 0 := by
  cases f <;> simp [Form.bounds, Form.Allows] <;> try omega

/-- **C47.** A check of any documented cardinality passes if and only if the number of objects is allowed, and otherwise raises `CardinalityError`. -/
theorem cardinality_exact (W : World) (o : Nat) (dest rel : Text) (f : Form) (n : Nat) (hn : W.count o rel dest = .ok n) :
    (f.Allows n → check W o dest rel f.yaml = .ok ()) ∧ (¬ f.Allows n → check W o dest rel f.yaml = .error .cardinalityError) := by
  have h : check W o dest rel f.yaml = if outside n f.bounds then .error .cardinalityError else .ok () := by simp only [check, hn, interpret_yaml]
  rw [h]
  rw [← outside_bounds]
  exact ⟨fun h => by rw [h]; rfl, fun h => by rw [Bool.not_eq_false _ |>.mp h]; rfl⟩

/-- **C47.** A text with neither sign allows every number. -/
theorem other_text_arbitrary (W : World) (o : Nat) (dest rel : Text) (t : Text) (h1 : '-' ∉ t) (h2 : '+' ∉ t) (n : Nat) (hn : W.count o rel dest = .ok n) :
    check W o dest rel (some (.str t)) = .ok () := by
  simp [check, hn, interpret, h1, h2, outside]

/-- Finding (C47): a number written as a text (`cardinality: "3"`) does not mean exactly that number, it allows every number. -/
theorem quoted_number_arbitrary (W : World) (o : Nat) (dest rel : Text) (a n : Nat) (hn : W.count o rel dest = .ok n) : check W o dest rel (some (.str (dec a))) = .ok () :=
  other_text_arbitrary W o dest rel _ (dec_no (Or.inl rfl)) (dec_no (Or.inr rfl)) n hn

/-- Finding (C47): of more than two bounds the first two are used, and text after the plus sign is ignored. -/
theorem more_bounds_ignored (a b : Nat) (t : Text) :
    interpret (some (.str (dec a ++ '-' :: (dec b ++ '-' :: t)))) = interpret (Form.between a b).yaml ∧
    ('-' ∉ t → interpret (some (.str (dec a ++ '+' :: t))) = interpret (Form.atLeast a).yaml) := by
  constructor
  · rw [interpret_yaml]
    have h : splitOn '-' (dec a ++ '-' :: (dec b ++ '-' :: t)) = dec a :: dec b :: splitOn '-' t := by
      rw [splitOn_append _ _ _ (dec_no (Or.inl rfl)), splitOn_append _ _ _ (dec_no (Or.inl rfl))]
    simp [interpret, h, readInt, pyInt_dec, Form.bounds]
  · intro ht
    rw [interpret_yaml]
    have h : splitOn '+' (dec a ++ '+' :: t) = dec a :: splitOn '+' t := splitOn_append _ _ _ (dec_no (Or.inr rfl))
    simp [interpret, h, readInt, pyInt_dec, Form.bounds, dec_no (n := a) (Or.inl rfl), ht]

/-- Finding (C47): constraints without a cardinality raise `TypeError` for every tree, even though the documented default is arbitrary. -/
theorem missing_cardinality_raises (W : World) (fuel root : Nat) (c r d : Text) : validate W fuel [(c, some [(r, [(d, some .other)])])] root = .error .typeError := rfl

/-! ### the parts of the validation -/

theorem Reach.trans {W : World} {a b c : Nat} (h : Reach W a b) (k : Reach W b c) : Reach W a c := by
  induction h with
  | refl => exact k
  | step h1 _ ih => exact Reach.step h1 (ih k)

theorem mem_entryConstraints {e : Option (List (Text × List (Text × Form)))} (x : Text × Text × Constraints) :
    x ∈ entryConstraints (e.map (fun rels => rels.map (fun r => (r.1, r.2.map (fun n => (n.1, n.2.yaml)))))) ↔
      ∃ rels r nbs d f, e = some rels ∧ (r, nbs) ∈ rels ∧ (d, f) ∈ nbs ∧ x = (r, d, Form.yaml f) := by
  cases e with
  | none => simp [entryConstraints]
  | some rels =>
    simp only [entryConstraints, Option.map_some, List.mem_flatMap, List.mem_map, Option.some.injEq]
    constructor
    · rintro ⟨_, ⟨r, hr, rfl⟩, ⟨_, hm, rfl⟩⟩
      obtain ⟨q, hq, rfl⟩ := List.mem_map.1 hm
      exact ⟨rels, r.1, r.2, q.1, q.2, rfl, hr, hq, rfl⟩
    · rintro ⟨_, r, nbs, d, f, rfl, h1, h2, rfl⟩
      exact ⟨_, ⟨_, h1, rfl⟩, ⟨(d, f.yaml), List.mem_map.2 ⟨_, h2, rfl⟩, rfl⟩⟩

theorem mem_allConstraints (S : Doc) (x : Text × Text × Constraints) :
    x ∈ S.yaml.flatMap (fun e => entryConstraints e.2) ↔ ∃ c r d f, Constrains S c r d f ∧ x = (r, d, Form.yaml f) := by
  simp only [List.mem_flatMap, Doc.yaml, List.mem_map]
  constructor
  · rintro ⟨_, ⟨e, he, rfl⟩, hx⟩
    obtain ⟨rels, r, nbs, d, f, h1, h2, h3, rfl⟩ := (mem_entryConstraints x).1 hx
    exact ⟨e.1, r, d, f, ⟨rels, nbs, by rw [← h1]; exact he, h2, h3⟩, rfl⟩
  · rintro ⟨c, r, d, f, ⟨rels, nbs, h1, h2, h3⟩, rfl⟩
    exact ⟨_, ⟨_, h1, rfl⟩, (mem_entryConstraints _).2 ⟨rels, r, nbs, d, f, rfl, h2, h3, rfl⟩⟩

theorem collect_ok (cs : List (Text × Text × Constraints)) (h : ∀ x ∈ cs, ∃ f : Form, x.2.2 = f.yaml) (r : List Text × List Text) :
    ∃ r', collect cs r = .ok r' ∧ (∀ d, d ∈ r'.1 ↔ d ∈ r.1 ∨ ∃ rel f, (rel, d, Form.yaml f) ∈ cs ∧ f.Allows 0) ∧
      (∀ d, d ∈ r'.2 ↔ d ∈ r.2 ∨ ∃ rel f, (rel, d, Form.yaml f) ∈ cs ∧ ¬ f.Allows 0) := by
  induction cs generalizing r with
  | nil => exact ⟨r, rfl, fun d => by simp, fun d => by simp⟩
  | cons x cs ih =>
    obtain ⟨f, hf⟩ := h x (List.mem_cons_self ..)
    obtain ⟨rel, d0, c⟩ := x
    dsimp only at hf
    subst hf
    obtain ⟨r', h1, h2, h3⟩ := ih (fun x hx => h x (List.mem_cons_of_mem _ hx)) (if f.bounds.1 = 0 then d0 :: r.1 else r.1, if f.bounds.1 > 0 then d0 :: r.2 else r.2)
    have inj : ∀ {g : Form}, Form.yaml g = f.yaml → (g.Allows 0 ↔ f.Allows 0) := by
      intro g hg
      have := interpret_yaml g
      rw [hg, interpret_yaml] at this
      have e : f.bounds = g.bounds := by injection this
      rw [← bounds_zero, ← bounds_zero, e]
    refine ⟨r', ?_, fun d => ?_, fun d => ?_⟩
    · show (match interpret f.yaml with | .error e => _ | .ok b => _) = _
      rw [interpret_yaml]
      exact h1
    · rw [h2]
      by_cases hz : f.Allows 0
      · rw [if_pos ((bounds_zero f).2 hz), List.mem_cons]
        constructor
        · rintro ((rfl | h) | ⟨rel', g, h, hg⟩)
          · exact Or.inr ⟨rel, f, List.mem_cons_self .., hz⟩
          · exact Or.inl h
          · exact Or.inr ⟨rel', g, List.mem_cons_of_mem _ h, hg⟩
        · rintro (h | ⟨rel', g, h, hg⟩)
          · exact Or.inl (Or.inr h)
          · rcases List.mem_cons.1 h with h | h
            · injection h with _ h; injection h with h _; exact Or.inl (Or.inl h)
            · exact Or.inr ⟨rel', g, h, hg⟩
      · rw [if_neg (fun h => hz ((bounds_zero f).1 h))]
        constructor
        · rintro (h | ⟨rel', g, h, hg⟩)
          · exact Or.inl h
          · exact Or.inr ⟨rel', g, List.mem_cons_of_mem _ h, hg⟩
        · rintro (h | ⟨rel', g, h, hg⟩)
          · exact Or.inl h
          · rcases List.mem_cons.1 h with h | h
            · injection h with _ h; injection h with _ h; exact absurd ((inj h).1 hg) hz
            · exact Or.inr ⟨rel', g, h, hg⟩
    · rw [h3]
      by_cases hz : f.Allows 0
      · rw [if_neg (fun h => (bounds_pos f).1 h hz)]
        constructor
        · rintro (h | ⟨rel', g, h, hg⟩)
          · exact Or.inl h
          · exact Or.inr ⟨rel', g, List.mem_cons_of_mem _ h, hg⟩
        · rintro (h | ⟨rel', g, h, hg⟩)
          · exact Or.inl h
          · rcases List.mem_cons.1 h with h | h
            · injection h with _ h; injection h with _ h; exact absurd ((inj h).2 hz) hg
            · exact Or.inr ⟨rel', g, h, hg⟩
      · rw [if_pos ((bounds_pos f).2 hz), List.mem_cons]
        constructor
        · rintro ((rfl | h) | ⟨rel', g, h, hg⟩)
          · exact Or.inr ⟨rel, f, List.mem_cons_self .., hz⟩
          · exact Or.inl h
          · exact Or.inr ⟨rel', g, List.mem_cons_of_mem _ h, hg⟩
        · rintro (h | ⟨rel', g, h, hg⟩)
          · exact Or.inl (Or.inr h)
          · rcases List.mem_cons.1 h with h | h
            · injection h with _ h; injection h with h _; exact Or.inl (Or.inl h)
            · exact Or.inr ⟨rel', g, h, hg⟩

theorem optionalMandatory_ok (S : Doc) :
    (Contradictory S → optionalMandatory S.yaml = .error .consistencyError) ∧
    (¬ Contradictory S → ∃ om, optionalMandatory S.yaml = .ok om ∧ (∀ d, d ∈ om.1 ↔ ∃ c r f, Constrains S c r d f ∧ f.Allows 0) ∧
      ∀ d, d ∈ om.2 ↔ ∃ c r f, Constrains S c r d f ∧ ¬ f.Allows 0) := by
  obtain ⟨r, h1, h2, h3⟩ := collect_ok (S.yaml.flatMap (fun e => entryConstraints e.2))
    (fun x hx => by obtain ⟨_, _, _, f, _, rfl⟩ := (mem_allConstraints S x).1 hx; exact ⟨f, rfl⟩) ([], [])
  have yamlZero : ∀ {f g : Form}, Form.yaml f = Form.yaml g → (f.Allows 0 ↔ g.Allows 0) := by
    intro f g hg
    have := interpret_yaml f
    rw [hg, interpret_yaml] at this
    have e : g.bounds = f.bounds := by injection this
    rw [← bounds_zero, ← bounds_zero, e]
  have k2 : ∀ d, d ∈ r.1 ↔ ∃ c r f, Constrains S c r d f ∧ f.Allows 0 := by
    intro d
    rw [h2]
    constructor
    · rintro (h | ⟨rel, f, h, hf⟩)
      · cases h
      · obtain ⟨c, r', d', g, hc, e⟩ := (mem_allConstraints S _).1 h
        injection e with e1 e2
        injection e2 with e2 e3
        subst e1; subst e2
        exact ⟨c, rel, g, hc, (yamlZero e3).1 hf⟩
    · rintro ⟨c, rel, f, h, hf⟩
      exact Or.inr ⟨rel, f, (mem_allConstraints S _).2 ⟨c, rel, d, f, h, rfl⟩, hf⟩
  have k3 : ∀ d, d ∈ r.2 ↔ ∃ c r f, Constrains S c r d f ∧ ¬ f.Allows 0 := by
    intro d
    rw [h3]
    constructor
    · rintro (h | ⟨rel, f, h, hf⟩)
      · cases h
      · obtain ⟨c, r', d', g, hc, e⟩ := (mem_allConstraints S _).1 h
        injection e with e1 e2
        injection e2 with e2 e3
        subst e1; subst e2
        exact ⟨c, rel, g, hc, fun hg => hf ((yamlZero e3).2 hg)⟩
    · rintro ⟨c, rel, f, h, hf⟩
      exact Or.inr ⟨rel, f, (mem_allConstraints S _).2 ⟨c, rel, d, f, h, rfl⟩, hf⟩
  have key : r.1.any (fun x => decide (x ∈ r.2)) = true ↔ Contradictory S := by
    simp only [List.any_eq_true, decide_eq_true_eq, k2, k3]
    rfl
  refine ⟨fun hc => ?_, fun hc => ⟨r, ?_, k2, k3⟩⟩
  · simp only [optionalMandatory, h1, key.2 hc, if_true]
  · have : r.1.any (fun x => decide (x ∈ r.2)) = false := Bool.eq_false_iff.2 (fun h => hc (key.1 h))
    simp only [optionalMandatory, h1, this, Bool.false_eq_true, if_false]

/-- The groups contain reachable objects under their class, and are not empty. -/
def GOk (W : World) (root : Nat) (g : Groups) : Prop := ∀ k l, (k, l) ∈ g → l ≠ [] ∧ ∀ o ∈ l, W.cls o = k ∧ Reach W root o

theorem mem_setKey {k : Text} {v : List Nat} {g : Groups} {x : Text × List Nat} (h : x ∈ setKey k v g) : x ∈ g ∨ x = (k, v) := by
  induction g with
  | nil => exact Or.inr (by simpa [setKey] using h)
  | cons y g ih =>
    unfold setKey at h
    split at h
    · rcases List.mem_cons.1 h with rfl | h
      · exact Or.inr rfl
      · exact Or.inl (List.mem_cons_of_mem _ h)
    · rcases List.mem_cons.1 h with rfl | h
      · exact Or.inl (List.mem_cons_self ..)
      · rcases ih h with h | h
        · exact Or.inl (List.mem_cons_of_mem _ h)
        · exact Or.inr h

theorem keys_setKey (k : Text) (v : List Nat) (g : Groups) : (k ∈ (setKey k v g).map Prod.fst) ∧ ∀ x ∈ g.map Prod.fst, x ∈ (setKey k v g).map Prod.fst := by
  induction g with
  | nil => simp [setKey]
  | cons y g ih =>
    unfold setKey
    split
    · rename_i h; simp [h]
    · simp only [List.map_cons, List.mem_cons]
      refine ⟨Or.inr ih.1, ?_⟩
      rintro x (h | h)
      · exact Or.inl h
      · exact Or.inr (ih.2 x h)

theorem record_ok {W : World} {root o : Nat} {g : Groups} (h : GOk W root g) (ho : Reach W root o) : GOk W root (record W o g) := by
  intro k l hm
  rcases mem_setKey (show (k, l) ∈ setKey (W.cls o) [o] g from hm) with hm | hm
  · exact h k l hm
  · cases hm
    refine ⟨by simp, ?_⟩
    intro x hx
    rw [List.mem_singleton] at hx
    subst hx
    exact ⟨rfl, ho⟩

theorem record_keys (W : World) (o : Nat) (g : Groups) : (W.cls o ∈ (record W o g).map Prod.fst) ∧ ∀ x ∈ g.map Prod.fst, x ∈ (record W o g).map Prod.fst :=
  keys_setKey (W.cls o) [o] g

theorem traverse_ok {W : World} {root : Nat} (n : Nat) : ∀ (o : Nat) (g : Groups), Depth W n o → Reach W root o → GOk W root g →
    ∃ g', traverse W n o g = .ok g' ∧ GOk W root g' ∧ (∀ x ∈ g.map Prod.fst, x ∈ g'.map Prod.fst) ∧ ∀ c ∈ W.children o, ∀ x, Reach W c x → W.cls x ∈ g'.map Prod.fst := by
  induction n with
  | zero => intro o g h; exact absurd h id
  | succ n ih =>
    intro o g hd hr hg
    have loop : ∀ (cs : List Nat) (g : Groups), (∀ c ∈ cs, c ∈ W.children o) → GOk W root g →
        ∃ g', Schema.loop W (traverse W n) cs g = .ok g' ∧ GOk W root g' ∧ (∀ x ∈ g.map Prod.fst, x ∈ g'.map Prod.fst) ∧ ∀ c ∈ cs, ∀ x, Reach W c x → W.cls x ∈ g'.map Prod.fst := by
      intro cs
      induction cs with
      | nil => intro g _ hg; exact ⟨g, by simp [Schema.loop], hg, fun _ h => h, fun c hc => (by cases hc)⟩
      | cons c cs ihc =>
        intro g hcs hg
        have hc := hcs c (List.mem_cons_self ..)
        have hrc : Reach W root c := hr.trans (Reach.step hc (Reach.refl _))
        obtain ⟨g1, e1, k1, s1, m1⟩ := ih c (record W c g) (hd c hc) hrc (record_ok hg hrc)
        obtain ⟨g2, e2, k2, s2, m2⟩ := ihc g1 (fun d hd => hcs d (List.mem_cons_of_mem _ hd)) k1
        refine ⟨g2, by simp only [Schema.loop, e1, e2], k2, fun x hx => s2 x (s1 x ((record_keys W c g).2 x hx)), ?_⟩
        intro d hd x hx
        rcases List.mem_cons.1 hd with rfl | hd
        · cases hx with
          | refl => exact s2 _ (s1 _ (record_keys W d g).1)
          | step h1 h2 => exact s2 _ (m1 _ h1 _ h2)
        · exact m2 d hd x hx
    obtain ⟨g', h1, h2, h3, h4⟩ := loop (W.children o) g (fun _ h => h) hg
    exact ⟨g', by rw [traverse]; exact h1, h2, h3, h4⟩

theorem groups_ok {W : World} {n root : Nat} (hd : Depth W n root) :
    ∃ g, groups W n root = .ok g ∧ GOk W root g ∧ ∀ x, Reach W root x → W.cls x ∈ g.map Prod.fst := by
  obtain ⟨g, h1, h2, h3, h4⟩ := traverse_ok n root [(W.cls root, [root])] hd (Reach.refl _) (by
    intro k l h
    simp only [List.mem_singleton, Prod.mk.injEq] at h
    obtain ⟨rfl, rfl⟩ := h
    refine ⟨by simp, fun o ho => ?_⟩
    rw [List.mem_singleton] at ho
    subst ho
    exact ⟨rfl, Reach.refl _⟩)
  refine ⟨g, h1, h2, fun x hx => ?_⟩
  cases hx with
  | refl => exact h3 _ (by simp)
  | step h5 h6 => exact h4 _ h5 _ h6

theorem lookup_isNone_iff (g : Groups) (k : Text) : (g.lookup k).isNone = true ↔ k ∉ g.map Prod.fst := by
  induction g with
  | nil => simp
  | cons x g ih =>
    rw [List.lookup_cons]
    by_cases h : k = x.1
    · simp [h]
    · have : (k == x.1) = false := by simpa using h
      rw [this, ih]
      simp [h]

theorem presence_ok (om : List Text × List Text) (g : Groups) (S : Schema) :
    ((∃ e ∈ S, (falsy e.2 = true ∨ e.1 ∈ om.2 ∨ e.1 ∉ om.1) ∧ e.1 ∉ g.map Prod.fst) → presence om g S = .error .consistencyError) ∧
    ((¬ ∃ e ∈ S, (falsy e.2 = true ∨ e.1 ∈ om.2 ∨ e.1 ∉ om.1) ∧ e.1 ∉ g.map Prod.fst) → presence om g S = .ok ()) := by
  induction S with
  | nil => exact ⟨fun ⟨e, h, _⟩ => (by cases h), fun _ => rfl⟩
  | cons e S ih =>
    have hb : ((falsy e.2 || decide (e.1 ∈ om.2) || decide (e.1 ∉ om.1)) && (g.lookup e.1).isNone) = true ↔ (falsy e.2 = true ∨ e.1 ∈ om.2 ∨ e.1 ∉ om.1) ∧ e.1 ∉ g.map Prod.fst := by
      rw [Bool.and_eq_true, lookup_isNone_iff, Bool.or_eq_true, Bool.or_eq_true, decide_eq_true_eq, decide_eq_true_eq, or_assoc]
    by_cases h : (falsy e.2 = true ∨ e.1 ∈ om.2 ∨ e.1 ∉ om.1) ∧ e.1 ∉ g.map Prod.fst
    · refine ⟨fun _ => by simp only [presence, hb.2 h, if_true], fun hn => absurd ⟨e, List.mem_cons_self .., h⟩ hn⟩
    · have hf : ((falsy e.2 || decide (e.1 ∈ om.2) || decide (e.1 ∉ om.1)) && (g.lookup e.1).isNone) = false := Bool.eq_false_iff.2 (fun hh => h (hb.1 hh))
      have hp : presence om g (e :: S) = presence om g S := by simp only [presence, hf, Bool.false_eq_true, if_false]
      rw [hp]
      refine ⟨?_, fun hn => ih.2 (fun ⟨x, hx, hh⟩ => hn ⟨x, List.mem_cons_of_mem _ hx, hh⟩)⟩
      rintro ⟨x, hx, hh⟩
      rcases List.mem_cons.1 hx with rfl | hx
      · exact absurd hh h
      · exact ih.1 ⟨x, hx, hh⟩

/-- The constraints of a list hold for an object. -/
def Holds (W : World) (o : Nat) (cs : List (Text × Text × Constraints)) : Prop := ∀ r d f, (r, d, Form.yaml f) ∈ cs → ∀ n, W.count o r d = .ok n → f.Allows n

theorem checkObject_ok {W : World} (hc : ∀ o r d, ∃ n, W.count o r d = .ok n) (o : Nat) (cs : List (Text × Text × Constraints)) (h : ∀ x ∈ cs, ∃ f : Form, x.2.2 = f.yaml) :
    (Holds W o cs → checkObject W o cs = .ok ()) ∧ (¬ Holds W o cs → checkObject W o cs = .error .cardinalityError) := by
  induction cs with
  | nil => exact ⟨fun _ => rfl, fun h => absurd (fun r d f h => (by cases h)) h⟩
  | cons x cs ih =>
    obtain ⟨f, hf⟩ := h x (List.mem_cons_self ..)
    obtain ⟨r, d, c⟩ := x
    dsimp only at hf
    subst hf
    obtain ⟨i1, i2⟩ := ih (fun x hx => h x (List.mem_cons_of_mem _ hx))
    obtain ⟨n, hn⟩ := hc o r d
    obtain ⟨c1, c2⟩ := cardinality_exact W o d r f n hn
    have inj : ∀ {g : Form} {m : Nat}, Form.yaml g = f.yaml → f.Allows m → g.Allows m := by
      intro g m hg
      have := interpret_yaml g
      rw [hg, interpret_yaml] at this
      have e : f.bounds = g.bounds := by injection this
      rw [← outside_bounds, ← outside_bounds, e]; exact id
    have cons : Holds W o ((r, d, f.yaml) :: cs) ↔ f.Allows n ∧ Holds W o cs := by
      constructor
      · intro h
        exact ⟨h r d f (List.mem_cons_self ..) n hn, fun r d f hm => h r d f (List.mem_cons_of_mem _ hm)⟩
      · rintro ⟨h1, h2⟩ r' d' g hm m hm'
        rcases List.mem_cons.1 hm with e | hm
        · injection e with e1 e2
          injection e2 with e2 e3
          subst e1; subst e2
          rw [hn] at hm'
          cases hm'
          exact inj e3 h1
        · exact h2 r' d' g hm m hm'
    rw [cons]
    by_cases ha : f.Allows n
    · have e : checkObject W o ((r, d, f.yaml) :: cs) = checkObject W o cs := by simp only [checkObject, c1 ha]
      rw [e]
      exact ⟨fun h => i1 h.2, fun h => i2 (fun hh => h ⟨ha, hh⟩)⟩
    · have e : checkObject W o ((r, d, f.yaml) :: cs) = .error .cardinalityError := by simp only [checkObject, c2 ha]
      rw [e]
      exact ⟨fun h => absurd h.1 ha, fun _ => rfl⟩

theorem checkObjects_ok {W : World} (hc : ∀ o r d, ∃ n, W.count o r d = .ok n) (cs : List (Text × Text × Constraints)) (h : ∀ x ∈ cs, ∃ f : Form, x.2.2 = f.yaml) (os : List Nat) :
    ((∀ o ∈ os, Holds W o cs) → checkObjects W cs os = .ok ()) ∧ ((¬ ∀ o ∈ os, Holds W o cs) → checkObjects W cs os = .error .cardinalityError) := by
  induction os with
  | nil => exact ⟨fun _ => rfl, fun h => absurd (fun o h => (by cases h)) h⟩
  | cons o os ih =>
    obtain ⟨c1, c2⟩ := checkObject_ok hc o cs h
    by_cases ha : Holds W o cs
    · have e : checkObjects W cs (o :: os) = checkObjects W cs os := by simp only [checkObjects, c1 ha]
      rw [e]
      refine ⟨fun hh => ih.1 (fun x hx => hh x (List.mem_cons_of_mem _ hx)), fun hh => ih.2 (fun hn => hh ?_)⟩
      intro x hx
      rcases List.mem_cons.1 hx with rfl | hx
      · exact ha
      · exact hn x hx
    · have e : checkObjects W cs (o :: os) = .error .cardinalityError := by simp only [checkObjects, c2 ha]
      rw [e]
      exact ⟨fun hh => absurd (hh o (List.mem_cons_self ..)) ha, fun _ => rfl⟩

/-- The keys of a YAML mapping are distinct. -/
def Doc.Keys (S : Doc) : Prop := (S.map Prod.fst).Nodup

theorem lookup_yaml (S : Doc) (k : Text) : S.yaml.lookup k = (S.lookup k).map (fun e => e.map (fun rels => rels.map (fun r => (r.1, r.2.map (fun n => (n.1, Form.yaml n.2)))))) := by
  induction S with
  | nil => rfl
  | cons x S ih =>
    show List.lookup k ((x.1, _) :: Doc.yaml S) = _
    obtain ⟨a, b⟩ := x
    rw [List.lookup_cons, List.lookup_cons]
    cases k == a
    · exact ih
    · rfl

theorem lookup_mem' {α : Type} {S : List (Text × α)} {k : Text} {e : α} (h : S.lookup k = some e) : (k, e) ∈ S := by
  induction S with
  | nil => cases h
  | cons x S ih =>
    obtain ⟨a, b⟩ := x
    rw [List.lookup_cons] at h
    by_cases hk : k = a
    · subst hk; simp at h; subst h; exact List.mem_cons_self ..
    · have e : (k == a) = false := by simpa using hk
      rw [e] at h
      exact List.mem_cons_of_mem _ (ih h)

theorem lookup_of_mem' {α : Type} {S : List (Text × α)} (hS : (S.map Prod.fst).Nodup) {k : Text} {e : α} (h : (k, e) ∈ S) : S.lookup k = some e := by
  induction S with
  | nil => cases h
  | cons x S ih =>
    obtain ⟨a, b⟩ := x
    rw [List.map_cons, List.nodup_cons] at hS
    rw [List.lookup_cons]
    rcases List.mem_cons.1 h with h | h'
    · have h1 := congrArg Prod.fst h; have h2 := congrArg Prod.snd h; dsimp only at h1 h2; rw [h1, h2]; simp
    · have : (k == a) = false := by
        rw [beq_eq_false_iff_ne]
        rintro rfl
        exact hS.1 (List.mem_map.2 ⟨_, h', rfl⟩)
      rw [this]
      exact ih hS.2 h'

/-- The constraints found for a class are those of the schema. -/
theorem holds_conforms {S : Doc} (hS : S.Keys) (W : World) (o : Nat) {k : Text} (hk : W.cls o = k) :
    (match S.yaml.lookup k with | none => True | some e => Holds W o (entryConstraints e)) ↔ Conforms W S o := by
  rw [lookup_yaml]
  have canon : ∀ {f g : Form} {m : Nat}, Form.yaml f = Form.yaml g → (f.Allows m ↔ g.Allows m) := by
    intro f g m hg
    have := interpret_yaml f
    rw [hg, interpret_yaml] at this
    have e : g.bounds = f.bounds := by injection this
    rw [← outside_bounds, ← outside_bounds, e]
  cases hl : S.lookup k with
  | none =>
    refine ⟨fun _ => ?_, fun _ => trivial⟩
    rintro r d f ⟨rels, nbs, h1, _, _⟩
    rw [hk] at h1
    rw [lookup_of_mem' hS h1] at hl
    cases hl
  | some e =>
    dsimp only [Option.map_some]
    constructor
    · rintro h r d f ⟨rels, nbs, h1, h2, h3⟩ n hn
      rw [hk] at h1
      rw [lookup_of_mem' hS h1] at hl
      cases hl
      exact h r d f ((mem_entryConstraints _).2 ⟨rels, r, nbs, d, f, rfl, h2, h3, rfl⟩) n hn
    · intro h r d f hm n hn
      obtain ⟨rels, r', nbs, d', g, rfl, h2, h3, ex⟩ := (mem_entryConstraints _).1 hm
      injection ex with e1 e2
      injection e2 with e2 e3
      subst e1; subst e2
      refine (canon e3).2 (h r d g ⟨rels, nbs, ?_, h2, h3⟩ n hn)
      rw [hk]
      exact lookup_mem' hl

theorem checkGroups_ok {W : World} (hc : ∀ o r d, ∃ n, W.count o r d = .ok n) {S : Doc} (hS : S.Keys) (g : Groups) (hg : ∀ k l, (k, l) ∈ g → ∀ o ∈ l, W.cls o = k) :
    ((∀ k l, (k, l) ∈ g → ∀ o ∈ l, Conforms W S o) → checkGroups W S.yaml g = .ok ()) ∧
    ((¬ ∀ k l, (k, l) ∈ g → ∀ o ∈ l, Conforms W S o) → checkGroups W S.yaml g = .error .cardinalityError) := by
  induction g with
  | nil => exact ⟨fun _ => rfl, fun h => absurd (fun k l h => (by cases h)) h⟩
  | cons x g ih =>
    obtain ⟨k, l⟩ := x
    obtain ⟨i1, i2⟩ := ih (fun k l h => hg k l (List.mem_cons_of_mem _ h))
    have hk := hg k l (List.mem_cons_self ..)
    have one : ((∀ o ∈ l, Conforms W S o) → checkGroup W S.yaml (k, l) = .ok ()) ∧ ((¬ ∀ o ∈ l, Conforms W S o) → checkGroup W S.yaml (k, l) = .error .cardinalityError) := by
      unfold checkGroup
      dsimp only
      have hh : ∀ o ∈ l, ((match S.yaml.lookup k with | none => True | some e => Holds W o (entryConstraints e)) ↔ Conforms W S o) := fun o ho => holds_conforms hS W o (hk o ho)
      have hform : ∀ e, S.yaml.lookup k = some e → ∀ x ∈ entryConstraints e, ∃ f : Form, x.2.2 = f.yaml := by
        intro e he x hx
        rw [lookup_yaml, Option.map_eq_some_iff] at he
        obtain ⟨e', _, rfl⟩ := he
        obtain ⟨_, _, _, _, f, _, _, _, rfl⟩ := (mem_entryConstraints x).1 hx
        exact ⟨f, rfl⟩
      generalize S.yaml.lookup k = y at hh hform
      cases y with
      | none => exact ⟨fun _ => rfl, fun hn => absurd (fun o ho => (hh o ho).1 trivial) hn⟩
      | some e =>
        obtain ⟨c1, c2⟩ := checkObjects_ok hc (entryConstraints e) (hform e rfl) l
        exact ⟨fun h => c1 (fun o ho => (hh o ho).2 (h o ho)), fun hn => c2 (fun h => hn (fun o ho => (hh o ho).1 (h o ho)))⟩
    by_cases ha : ∀ o ∈ l, Conforms W S o
    · have e : checkGroups W S.yaml ((k, l) :: g) = checkGroups W S.yaml g := by simp only [checkGroups, one.1 ha]
      rw [e]
      refine ⟨fun h => i1 (fun k l hm => h k l (List.mem_cons_of_mem _ hm)), fun hn => i2 (fun h => hn ?_)⟩
      intro k' l' hm
      rcases List.mem_cons.1 hm with hm | hm
      · cases hm; exact ha
      · exact h k' l' hm
    · have e : checkGroups W S.yaml ((k, l) :: g) = .error .cardinalityError := by simp only [checkGroups, one.2 ha]
      rw [e]
      exact ⟨fun h => absurd (h k l (List.mem_cons_self ..)) ha, fun _ => rfl⟩

theorem falsy_yaml (e : Option (List (Text × List (Text × Form)))) : falsy (e.map (fun rels => rels.map (fun r => (r.1, r.2.map (fun n => (n.1, Form.yaml n.2)))))) = true ↔ e = none ∨ e = some [] := by
  cases e with
  | none => simp [falsy]
  | some l => cases l <;> simp [falsy]

theorem presence_doc {S : Doc} {om : List Text × List Text} (h1 : ∀ d, d ∈ om.1 ↔ ∃ c r f, Constrains S c r d f ∧ f.Allows 0)
    (h2 : ∀ d, d ∈ om.2 ↔ ∃ c r f, Constrains S c r d f ∧ ¬ f.Allows 0) {W : World} {root : Nat} {g : Groups} (hg : GOk W root g)
    (hk : ∀ x, Reach W root x → W.cls x ∈ g.map Prod.fst) :
    (∃ e ∈ S.yaml, (falsy e.2 = true ∨ e.1 ∈ om.2 ∨ e.1 ∉ om.1) ∧ e.1 ∉ g.map Prod.fst) ↔ Incomplete W S root := by
  have absent : ∀ k, k ∉ g.map Prod.fst ↔ ∀ o, Reach W root o → W.cls o ≠ k := by
    intro k
    constructor
    · rintro h o ho rfl
      exact h (hk o ho)
    · intro h hm
      obtain ⟨⟨k', l⟩, hm', rfl⟩ := List.mem_map.1 hm
      dsimp only at h
      obtain ⟨hne, hl⟩ := hg k' l hm'
      obtain ⟨o, ho⟩ := List.exists_mem_of_ne_nil _ hne
      exact h o (hl o ho).2 (hl o ho).1
  constructor
  · rintro ⟨e, he, hr, ha⟩
    obtain ⟨e', he', rfl⟩ := List.mem_map.1 he
    refine ⟨e'.1, ⟨e'.2, he', ?_⟩, (absent _).1 ha⟩
    rcases hr with hr | hr | hr
    · rcases (falsy_yaml _).1 hr with h | h
      · exact Or.inl h
      · exact Or.inr (Or.inl h)
    · exact Or.inr (Or.inr (Or.inl ((h2 _).1 hr)))
    · exact Or.inr (Or.inr (Or.inr (fun hh => hr ((h1 _).2 hh))))
  · rintro ⟨k, ⟨e, he, hr⟩, ha⟩
    refine ⟨_, List.mem_map.2 ⟨_, he, rfl⟩, ?_, (absent k).2 ha⟩
    rcases hr with hr | hr | hr | hr
    · exact Or.inl ((falsy_yaml _).2 (Or.inl hr))
    · exact Or.inl ((falsy_yaml _).2 (Or.inr hr))
    · exact Or.inr (Or.inl ((h2 _).2 hr))
    · exact Or.inr (Or.inr (fun hh => hr ((h1 _).1 hh)))

/-! ### theorems -/

/-- **C48**, consistency: for every finite tree, `ConsistencyError` is raised if and only if the schema is contradictory or an object of a required class is missing. -/
theorem consistency_error_exact (W : World) (hc : ∀ o r d, ∃ n, W.count o r d = .ok n) (S : Doc) (hS : S.Keys) (root fuel : Nat) (hd : Depth W fuel root) :
    validate W fuel S.yaml root = .error .consistencyError ↔ Contradictory S ∨ Incomplete W S root := by
  obtain ⟨o1, o2⟩ := optionalMandatory_ok S
  by_cases h1 : Contradictory S
  · simp only [validate, o1 h1, true_iff]; exact Or.inl h1
  · obtain ⟨om, e, m1, m2⟩ := o2 h1
    obtain ⟨g, eg, k1, k2⟩ := groups_ok hd
    have hp := presence_doc m1 m2 k1 k2
    obtain ⟨p1, p2⟩ := presence_ok om g S.yaml
    by_cases h2 : Incomplete W S root
    · simp only [validate, e, eg, p1 (hp.2 h2), true_iff]; exact Or.inr h2
    · simp only [validate, e, eg, p2 (fun h => h2 (hp.1 h)), h1, h2, or_self, iff_false]
      obtain ⟨c1, c2⟩ := checkGroups_ok hc hS g (fun k l h o ho => ((k1 k l h).2 o ho).1)
      intro hh
      by_cases ha : ∀ k l, (k, l) ∈ g → ∀ o ∈ l, Conforms W S o
      · rw [c1 ha] at hh; cases hh
      · rw [c2 ha] at hh; cases hh

/-- **C48**, no false alarm: a finite tree that has the required objects and whose objects all satisfy the constraints of their classes is accepted. -/
theorem conforming_tree_accepted (W : World) (hc : ∀ o r d, ∃ n, W.count o r d = .ok n) (S : Doc) (hS : S.Keys) (root fuel : Nat) (hd : Depth W fuel root) (h1 : ¬ Contradictory S)
    (h2 : ¬ Incomplete W S root) (h3 : ∀ o, Reach W root o → Conforms W S o) : validate W fuel S.yaml root = .ok () := by
  obtain ⟨om, e, m1, m2⟩ := (optionalMandatory_ok S).2 h1
  obtain ⟨g, eg, k1, k2⟩ := groups_ok hd
  have hp := presence_doc m1 m2 k1 k2
  simp only [validate, e, eg, (presence_ok om g S.yaml).2 (fun h => h2 (hp.1 h))]
  exact (checkGroups_ok hc hS g (fun k l h o ho => ((k1 k l h).2 o ho).1)).1 (fun k l h o ho => h3 o ((k1 k l h).2 o ho).2)

/-- **C48**, soundness: `CardinalityError` means that a reachable object violates a constraint of its class. -/
theorem cardinality_error_sound (W : World) (hc : ∀ o r d, ∃ n, W.count o r d = .ok n) (S : Doc) (hS : S.Keys) (root fuel : Nat) (hd : Depth W fuel root)
    (h : validate W fuel S.yaml root = .error .cardinalityError) : ∃ o r d f n, Reach W root o ∧ Constrains S (W.cls o) r d f ∧ W.count o r d = .ok n ∧ ¬ f.Allows n := by
  apply Classical.byContradiction
  intro hn
  have hall : ∀ o, Reach W root o → Conforms W S o := by
    intro o ho r d f hcs n hcn
    exact Classical.byContradiction fun hf => hn ⟨o, r, d, f, n, ho, hcs, hcn, hf⟩
  by_cases hx : Contradictory S ∨ Incomplete W S root
  · rw [(consistency_error_exact W hc S hS root fuel hd).2 hx] at h; cases h
  · rw [not_or] at hx
    rw [conforming_tree_accepted W hc S hS root fuel hd hx.1 hx.2 hall] at h; cases h

/-- **C48** for trees with at most one object of each class: accepted if and only if the schema is not contradictory, no required object is missing and every reachable
object satisfies the constraints of its class. For trees with several objects of a class only the last object of each class is looked at, see `earlier_violation_missed`. -/
theorem validation_exact_partial (W : World) (hc : ∀ o r d, ∃ n, W.count o r d = .ok n) (S : Doc) (hS : S.Keys) (root fuel : Nat) (hd : Depth W fuel root)
    (huniq : ∀ o o', Reach W root o → Reach W root o' → W.cls o = W.cls o' → o = o') :
    validate W fuel S.yaml root = .ok () ↔ ¬ Contradictory S ∧ ¬ Incomplete W S root ∧ ∀ o, Reach W root o → Conforms W S o := by
  constructor
  · intro h
    have h1 : ¬ (Contradictory S ∨ Incomplete W S root) := by
      intro hx
      rw [(consistency_error_exact W hc S hS root fuel hd).2 hx] at h; cases h
    rw [not_or] at h1
    refine ⟨h1.1, h1.2, ?_⟩
    obtain ⟨om, e, m1, m2⟩ := (optionalMandatory_ok S).2 h1.1
    obtain ⟨g, eg, k1, k2⟩ := groups_ok hd
    have hp := presence_doc m1 m2 k1 k2
    simp only [validate, e, eg, (presence_ok om g S.yaml).2 (fun h => h1.2 (hp.1 h))] at h
    have hg : ∀ k l, (k, l) ∈ g → ∀ o ∈ l, Conforms W S o := by
      apply Classical.byContradiction
      intro hn
      rw [(checkGroups_ok hc hS g (fun k l h o ho => ((k1 k l h).2 o ho).1)).2 hn] at h
      cases h
    intro o ho
    obtain ⟨⟨k, l⟩, hm, hk⟩ := List.mem_map.1 (k2 o ho)
    obtain ⟨hne, hl⟩ := k1 k l hm
    obtain ⟨o', ho'⟩ := List.exists_mem_of_ne_nil _ hne
    have : o' = o := huniq o' o (hl o' ho').2 ho (((hl o' ho').1).trans hk)
    exact this ▸ hg k l hm o' ho'
  · rintro ⟨h1, h2, h3⟩
    exact conforming_tree_accepted W hc S hS root fuel hd h1 h2 h3

/-! ### findings -/

def city : Text := "a.City".toList
def person : Text := "a.Citizen".toList
def has : Text := "a.has".toList

/-- A root with two cities; the first has no citizen, the second one. -/
def W1 : World where
  cls o := if o = 0 then "a.Root".toList else if o = 3 then person else city
  children o := if o = 0 then [1, 2] else if o = 2 then [3] else []
  count o _ _ := .ok (if o = 0 then 2 else if o = 2 then 1 else 0)

/-- Cities have exactly one citizen. -/
def S1 : Doc := [(city, some [(has, [(person, .exactly 1)])])]

/-- Finding (C48): a violation by an object that is not the last one of its class is not noticed. The first city has no citizen, the tree is accepted. -/
theorem earlier_violation_missed : validate W1 10 S1.yaml 0 = .ok () ∧ Reach W1 0 1 ∧ ¬ Conforms W1 S1 1 := by
  refine ⟨by decide +kernel, Reach.step (c := 1) (by decide) (Reach.refl _), ?_⟩
  intro h
  have := h has person (.exactly 1) ⟨_, _, List.mem_singleton.2 rfl, List.mem_singleton.2 rfl, List.mem_singleton.2 rfl⟩ 0 rfl
  exact absurd this (by simp [Form.Allows])

/-- If the same object is the last one, it is noticed. -/
example : validate { W1 with children := fun o => if o = 0 then [2, 1] else if o = 2 then [3] else [] } 10 S1.yaml 0 = .error .cardinalityError := by decide +kernel

theorem depth_below {W : World} {n : Nat} {o x : Nat} (h : Depth W n o) (hr : Reach W o x) : ∃ m, m ≤ n ∧ Depth W m x := by
  induction hr generalizing n with
  | refl => exact ⟨n, Nat.le_refl _, h⟩
  | step h1 _ ih =>
    cases n with
    | zero => exact absurd h id
    | succ n =>
      obtain ⟨m, hm, hd⟩ := ih (h _ h1)
      exact ⟨m, Nat.le_succ_of_le hm, hd⟩

theorem cycle_no_depth {W : World} {o c : Nat} (hc : c ∈ W.children o) (hr : Reach W c o) (n : Nat) : ¬ Depth W n o := by
  induction n using Nat.strongRecOn with
  | ind n ih =>
    intro h
    cases n with
    | zero => exact h
    | succ n =>
      obtain ⟨m, hm, hd⟩ := depth_below (h c hc) hr
      exact ih m (Nat.lt_succ_of_le hm) hd

theorem traverse_fails {W : World} (n : Nat) : ∀ (o : Nat) (g : Groups), ¬ Depth W n o → traverse W n o g = .error .runtimeError := by
  induction n with
  | zero => intro o g _; rw [traverse]
  | succ n ih =>
    intro o g hd
    have loop : ∀ (cs : List Nat) (g : Groups), (∃ c ∈ cs, ¬ Depth W n c) → Schema.loop W (traverse W n) cs g = .error .runtimeError := by
      intro cs
      induction cs with
      | nil => rintro g ⟨c, hc, _⟩; cases hc
      | cons c cs ihc =>
        rintro g ⟨d, hdm, hdd⟩
        by_cases hc : Depth W n c
        · obtain ⟨g1, e1, _⟩ := traverse_ok (root := c) n c [] hc (Reach.refl _) (fun k l h => (by cases h))
          have hx : ∃ r, traverse W n c (record W c g) = r := ⟨_, rfl⟩
          obtain ⟨r, hr⟩ := hx
          cases r with
          | error e =>
            exfalso
            exact (traverse_no_error n c _ hc e) hr
          | ok g2 =>
            simp only [Schema.loop, hr]
            rcases List.mem_cons.1 hdm with rfl | hdm
            · exact absurd hc hdd
            · exact ihc g2 ⟨d, hdm, hdd⟩
        · simp only [Schema.loop, ih c _ hc]
    rw [traverse]
    apply loop
    apply Classical.byContradiction
    intro hn
    exact hd (fun c hc => Classical.byContradiction fun h => hn ⟨c, hc, h⟩)
where
  traverse_no_error {W : World} (n : Nat) (o : Nat) (g : Groups) (hd : Depth W n o) (e : PyErr) : traverse W n o g ≠ .error e := by
    induction n generalizing o g with
    | zero => exact absurd hd id
    | succ n ih =>
      rw [traverse]
      have : ∀ (cs : List Nat) (g : Groups), (∀ c ∈ cs, c ∈ W.children o) → Schema.loop W (traverse W n) cs g ≠ .error e := by
        intro cs
        induction cs with
        | nil => intro g _ h; rw [Schema.loop] at h; cases h
        | cons c cs ihc =>
          intro g hcs h
          rw [Schema.loop] at h
          cases hr : traverse W n c (record W c g) with
          | error e' =>
            rw [hr] at h
            cases h
            exact ih c _ (hd c (hcs c (List.mem_cons_self ..))) hr
          | ok g2 =>
            rw [hr] at h
            exact ihc g2 (fun d hd => hcs d (List.mem_cons_of_mem _ hd)) h
      exact this _ g (fun _ h => h)

/-- Finding (C48): if a cycle can be reached by `iter()`, validation ends with `RecursionError` whatever the recursion limit: the traversal does not remember visited
objects. -/
theorem cyclic_structure_never_validated (W : World) (S : Doc) (h : ¬ Contradictory S) (root o c : Nat) (h1 : Reach W root o) (h2 : c ∈ W.children o) (h3 : Reach W c o) (fuel : Nat) :
    validate W fuel S.yaml root = .error .runtimeError := by
  obtain ⟨om, e, _⟩ := (optionalMandatory_ok S).2 h
  have hd : ¬ Depth W fuel root := fun hd => by
    obtain ⟨m, _, hm⟩ := depth_below hd h1
    exact cycle_no_depth h2 h3 m hm
  simp only [validate, e, groups, traverse_fails fuel root _ hd]

/-! ### concrete cases -/

/-- A tree that meets the hypotheses of `validation_exact_partial`: one city with one citizen. -/
def W2 : World where
  cls o := if o = 0 then city else person
  children o := if o = 0 then [1] else []
  count o _ _ := .ok (if o = 0 then 1 else 0)

example : (∀ o r d, ∃ n, W2.count o r d = .ok n) ∧ (S1.map Prod.fst).Nodup ∧ Depth W2 2 0 ∧ validate W2 2 S1.yaml 0 = .ok () := by
  refine ⟨fun o r d => ⟨_, rfl⟩, by decide, ?_, by decide +kernel⟩
  intro c hc
  have : c = 1 := by simpa [W2] using hc
  subst this
  intro d hd
  exact absurd hd (by simp [W2])

theorem reach_W2 {o : Nat} (h : Reach W2 0 o) : o = 0 ∨ o = 1 := by
  cases h with
  | refl => exact Or.inl rfl
  | step h1 h2 =>
    rename_i c
    have : c = 1 := by simpa [W2] using h1
    subst this
    cases h2 with
    | refl => exact Or.inr rfl
    | step h3 _ => exact absurd h3 (by simp [W2])

example : ∀ o o', Reach W2 0 o → Reach W2 0 o' → W2.cls o = W2.cls o' → o = o' := by
  intro o o' h h' e
  rcases reach_W2 h with rfl | rfl <;> rcases reach_W2 h' with rfl | rfl
  · rfl
  · exact absurd e (by decide)
  · exact absurd e (by decide)
  · rfl

/-- Two objects that contain each other. -/
example : validate { cls := fun _ => city, children := fun o => [1 - o], count := fun _ _ _ => .ok 1 } 1000 [] 0 = .error .runtimeError :=
  cyclic_structure_never_validated _ [] (by rintro ⟨_, ⟨_, _, _, ⟨_, _, h, _⟩, _⟩, _⟩; cases h) 0 0 1 (Reach.refl _) (by simp) (Reach.step (c := 0) (by simp) (Reach.refl _)) 1000

/-- The bounds of the documented forms at work. -/
example : interpret (some (.str "2-4".toList)) = .ok (2, some 4) ∧ interpret (some (.str "1+".toList)) = .ok (1, none) ∧ interpret (some (.str "-3".toList)) = .error .valueError := by
  decide +kernel

end Osp.Schema
