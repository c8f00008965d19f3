import Verif.Yaml.Props
/-!
# C55 for YAML ontologies: the documents that are accepted, in plain words
-/
namespace Osp.Yaml
variable (dig : Char → Bool)

/-! ### patterns in plain words -/

theorem nameRe_iff (t : Text) : Lang nameRe t ↔ IsName t := by
  rw [nameRe, lang_seq]
  constructor
  · rintro ⟨a, b, rfl, h1, h2⟩
    obtain ⟨c, rfl, hc⟩ := (lang_cls _ _).1 h1
    exact ⟨c, b, rfl, hc, (lang_star_cls _ _).1 h2⟩
  · rintro ⟨c, cs, rfl, hc, h⟩
    exact ⟨[c], cs, rfl, .cls hc, (lang_star_cls _ _).2 h⟩

theorem qualified_iff (t : Text) : Lang (.seq nameRe (.seq (.chr '.') nameRe)) t ↔ IsQualified t := by
  simp only [lang_seq, lang_chr, nameRe_iff]
  constructor
  · rintro ⟨a, b, rfl, ha, x, c, rfl, rfl, hc⟩
    exact ⟨a, c, rfl, ha, hc⟩
  · rintro ⟨a, c, rfl, ha, hc⟩
    exact ⟨a, '.' :: c, rfl, ha, ['.'], c, rfl, rfl, hc⟩

theorem digits_iff (t : Text) : Lang (digits dig) t ↔ Digits dig t := lang_plus_cls dig t

theorem version_iff (t : Text) : Lang (.seq (digits dig) (.seq (.chr '.') (.seq (digits dig) (.opt (.seq (.chr '.') (digits dig)))))) t ↔ IsVersion dig t := by
  simp only [lang_seq, lang_chr, digits_iff, lang_opt]
  constructor
  · rintro ⟨a, _, rfl, ha, _, _, rfl, rfl, b, _, rfl, hb, h⟩
    rcases h with ⟨_, c, rfl, rfl, hc⟩ | rfl
    · exact Or.inr ⟨a, b, c, by simp, ha, hb, hc⟩
    · exact Or.inl ⟨a, b, by simp, ha, hb⟩
  · rintro (⟨a, b, rfl, ha, hb⟩ | ⟨a, b, c, rfl, ha, hb, hc⟩)
    · exact ⟨a, '.' :: b, rfl, ha, ['.'], b, rfl, rfl, b, [], by simp, hb, Or.inr rfl⟩
    · exact ⟨a, '.' :: (b ++ '.' :: c), by simp, ha, ['.'], b ++ '.' :: c, rfl, rfl, b, '.' :: c, rfl, hb, Or.inl ⟨['.'], c, rfl, rfl, hc⟩⟩

theorem cardinality_iff (t : Text) : Lang (.alt (.words ["many".toList, "some".toList, "*".toList, "+".toList, "?".toList])
    (.alt (.seq (digits dig) (.chr '+')) (.alt (.seq (digits dig) (.seq (.chr '-') (.cls dig))) (digits dig)))) t ↔ IsCardinality dig t := by
  simp only [lang_alt, lang_words, lang_seq, lang_chr, digits_iff, lang_cls]
  unfold IsCardinality
  apply or_congr Iff.rfl
  apply or_congr
  · constructor
    · rintro ⟨a, _, rfl, ha, rfl⟩; exact ⟨a, rfl, ha⟩
    · rintro ⟨a, rfl, ha⟩; exact ⟨a, _, rfl, ha, rfl⟩
  · apply or_congr
    · constructor
      · rintro ⟨a, _, rfl, ha, _, _, rfl, rfl, c, rfl, hc⟩; exact ⟨a, c, rfl, ha, hc⟩
      · rintro ⟨a, c, rfl, ha, hc⟩; exact ⟨a, ['-', c], rfl, ha, ['-'], [c], rfl, rfl, c, rfl, hc⟩
    · exact Iff.rfl

theorem datatype_iff (t : Text) : Lang (.seq (.opt (.word "VECTOR:".toList)) (.seq (.words datatypes) (.star (.seq (.chr ':') (digits dig))))) t ↔ IsDatatype dig t := by
  simp only [lang_seq, lang_opt, lang_word, lang_words, lang_star, lang_chr, digits_iff]
  constructor
  · rintro ⟨pre, _, rfl, hpre, base, _, rfl, hb, ps, rfl, hps⟩
    have : ∃ sizes : List Text, ps = sizes.map (fun n => ':' :: n) ∧ ∀ n ∈ sizes, Digits dig n := by
      induction ps with
      | nil => exact ⟨[], rfl, fun _ h => by cases h⟩
      | cons p ps ih =>
        obtain ⟨sizes, rfl, h⟩ := ih (fun q hq => hps q (List.mem_cons_of_mem _ hq))
        obtain ⟨_, n, hn, rfl, hd⟩ := hps p List.mem_cons_self
        refine ⟨n :: sizes, by rw [hn]; rfl, ?_⟩
        intro m hm
        rcases List.mem_cons.1 hm with rfl | hm
        · exact hd
        · exact h m hm
    obtain ⟨sizes, rfl, h⟩ := this
    exact ⟨pre, base, sizes, by simp, hpre.symm, hb, h⟩
  · rintro ⟨pre, base, sizes, rfl, hpre, hb, h⟩
    refine ⟨pre, base ++ (sizes.map (fun n => ':' :: n)).flatten, by simp, hpre.symm, base, _, rfl, hb, sizes.map (fun n => ':' :: n), rfl, ?_⟩
    intro p hp
    obtain ⟨n, hn, rfl⟩ := List.mem_map.1 hp
    exact ⟨[':'], n, rfl, rfl, h n hn⟩

theorem scalar_iff {T : Table} {r : Re} {P : Text → Prop} (h : ∀ t, Lang r t ↔ P t) (doc : Yaml) : Conforms T doc (.regex (.whole r)) ↔ Scalar P doc := by
  have hP : Lang r = P := funext (fun t => propext (h t))
  constructor
  · intro hc
    cases hc with
    | regex ht hm => rw [Rx.Means, hP] at hm; exact ⟨_, ht, hm⟩
  · rintro ⟨t, ht, hm⟩
    refine .regex ht ?_
    rw [Rx.Means, hP]; exact hm

theorem namespace_iff {T : Table} (doc : Yaml) : Conforms T doc (.regex namespaceName) ↔ ∃ c t, doc.text = some (c :: t) ∧ isLetter c = true := by
  constructor
  · intro hc
    cases hc with
    | regex ht hm =>
      obtain ⟨u, v, rfl, hl⟩ := hm
      obtain ⟨c, cs, rfl, hc, _⟩ := (nameRe_iff u).1 hl
      exact ⟨c, cs ++ v, ht, hc⟩
  · rintro ⟨c, t, ht, hc⟩
    exact .regex ht ⟨[c], t, rfl, (nameRe_iff _).2 ⟨c, [], rfl, hc, fun _ h => by cases h⟩⟩

theorem strC_iff {T : Table} (doc : Yaml) : Conforms T doc .str ↔ ∃ t, doc = .str t := by
  constructor
  · intro h; cases h; exact ⟨_, rfl⟩
  · rintro ⟨t, rfl⟩; exact .str
theorem boolC_iff {T : Table} (doc : Yaml) : Conforms T doc .bool ↔ isBool doc = true := ⟨fun h => by cases h; assumption, .bool⟩
theorem items_iff {T : Table} {p : Pat} (doc : Yaml) : Conforms T doc (.items p) ↔ ListOf (fun x => Conforms T x p) doc := by
  constructor
  · intro h; cases h with | items h => exact ⟨_, rfl, h⟩
  · rintro ⟨l, rfl, h⟩; exact .items h
theorem entries_iff {T : Table} {k v : Pat} (doc : Yaml) : Conforms T doc (.entries k v) ↔ DictOf (fun x => Conforms T x k) (fun x => Conforms T x v) doc := by
  constructor
  · intro h; cases h with | entries h1 h2 => exact ⟨_, rfl, fun e he => ⟨h1 e he, h2 e he⟩⟩
  · rintro ⟨l, rfl, h⟩; exact .entries (fun e he => (h e he).1) (fun e he => (h e he).2)
theorem alts_iff {T : Table} {f : Text} {ps : List Pat} (hf : T.find f = some (.alts ps)) (doc : Yaml) : Conforms T doc (.named f) ↔ ∃ p ∈ ps, Conforms T doc p := by
  constructor
  · intro h
    cases h with
    | oneOf hf' hp h => rw [hf] at hf'; cases hf'; exact ⟨_, hp, h⟩
    | fields hf' => rw [hf] at hf'; cases hf'
  · rintro ⟨p, hp, h⟩; exact .oneOf hf hp h

/-- One key of a dictionary. -/
def KeyFits (T : Table) (l : Entries) (kp : Text × Pat) : Prop :=
  if mandatory kp.1 then ∃ v, get l (bare kp.1) = some v ∧ Conforms T v kp.2 else ∀ v, get l (bare kp.1) = some v → Conforms T v kp.2

theorem keys_iff {T : Table} {f : Text} {ks : List (Text × Pat)} (hf : T.find f = some (.keys ks)) (doc : Yaml) :
    Conforms T doc (.named f) ↔ ∃ l, doc = .dict l ∧ (∀ kp ∈ ks, KeyFits T l kp) ∧ ∀ e ∈ l, ∃ kp ∈ ks, e.1 = .str (bare kp.1) := by
  constructor
  · intro h
    cases h with
    | oneOf hf' => rw [hf] at hf'; cases hf'
    | fields hf' hm hv ho =>
      rw [hf] at hf'; cases hf'
      refine ⟨_, rfl, ?_, ho⟩
      intro kp hkp
      unfold KeyFits
      split
      · rename_i hmand
        obtain ⟨v, hv'⟩ := Option.isSome_iff_exists.1 (hm kp hkp hmand)
        exact ⟨v, hv', hv kp hkp v hv'⟩
      · exact hv kp hkp
  · rintro ⟨l, rfl, h, ho⟩
    refine .fields hf ?_ ?_ ho
    · intro kp hkp hmand
      have := h kp hkp
      unfold KeyFits at this
      rw [if_pos hmand] at this
      obtain ⟨v, hv, _⟩ := this
      rw [hv]; rfl
    · intro kp hkp x hx
      have := h kp hkp
      unfold KeyFits at this
      split at this
      · obtain ⟨v, hv, hc⟩ := this
        rw [hx] at hv; cases hv; exact hc
      · exact this x hx

theorem listOf_congr {P Q : Yaml → Prop} (h : ∀ x, P x ↔ Q x) (doc : Yaml) : ListOf P doc ↔ ListOf Q doc := by
  have : P = Q := funext (fun x => propext (h x))
  rw [this]

/-! ### formats of the table -/

theorem find_doc : (formats dig).find "/".toList = some (.keys [("!version".toList, .regex (versionRx dig)), ("!namespace".toList, .regex namespaceName),
    ("!ontology".toList, .entries (.regex entityName) (.named "entity_def".toList)), ("default_rel".toList, .regex qualifiedName), ("author".toList, .str),
    ("requirements".toList, .items (.regex entityName))]) := rfl
theorem find_entity : (formats dig).find "entity_def".toList = some (.keys (commonKeys ++ classKeys ++ relationshipKeys ++ attributeKeys dig)) := rfl
theorem find_ce : (formats dig).find "class_expression".toList = some (.alts [.regex qualifiedName, .entries (.regex qualifiedName) (.named "relationship_class_expression".toList),
      .entries (.regex (.whole (.words ["or".toList, "and".toList]))) (.items classExpression), .entries (.regex (.whole (.word "not".toList))) classExpression]) := rfl
theorem find_rce : (formats dig).find "relationship_class_expression".toList =
    some (.keys [("!range".toList, classExpression), ("cardinality".toList, .regex (cardinalityRx dig)), ("exclusive".toList, .bool)]) := rfl
theorem find_class : (formats dig).find "class_def".toList = some (.keys (commonKeys ++ classKeys)) := rfl
theorem find_rel : (formats dig).find "relationship_def".toList = some (.keys (commonKeys ++ relationshipKeys)) := rfl
theorem find_attr : (formats dig).find "attribute_def".toList = some (.keys (commonKeys ++ attributeKeys dig)) := rfl

theorem formats_closed : (formats dig).Closed := by
  intro e he
  simp only [formats, List.mem_cons, List.not_mem_nil, or_false] at he
  rcases he with rfl | rfl | rfl | rfl | rfl | rfl | rfl <;>
  simp only [Format.Known, commonKeys, classKeys, relationshipKeys, attributeKeys, List.cons_append, List.nil_append, List.mem_cons, List.not_mem_nil, or_false, forall_eq_or_imp, forall_eq,
    Pat.Known, Pat.isNamed, classExpression, find_ce, find_rce, find_entity, Option.isSome_some, and_self]

/-- Class expressions. -/
theorem classExpr_iff (doc : Yaml) : (Conforms (formats dig) doc classExpression ↔ ClassExpr dig doc) ∧
    (Conforms (formats dig) doc (.named "relationship_class_expression".toList) ↔ Restriction dig doc) := by
  generalize hd : depth doc = d
  induction d using Nat.strongRecOn generalizing doc with
  | _ d ih =>
    have restr : Conforms (formats dig) doc (.named "relationship_class_expression".toList) ↔ Restriction dig doc := by
      rw [keys_iff (find_rce dig)]
      simp only [List.mem_cons, List.not_mem_nil, or_false, forall_eq_or_imp, forall_eq, exists_eq_or_imp, exists_eq_left]
      constructor
      · rintro ⟨l, rfl, ⟨⟨v, hv, hc⟩, h2, h3⟩, ho⟩
        have hdv := (depthE_mem (get_mem hv)).2
        simp only [depth] at hd hdv
        refine .mk hv ((ih (depth v) (by omega) v rfl).1.1 hc) ?_ ?_ ?_
        · intro x hx; exact (scalar_iff (cardinality_iff dig) x).1 (h2 x hx)
        · intro x hx; exact (boolC_iff x).1 (h3 x hx)
        · intro e he
          have := ho e he
          simp only [List.mem_cons, List.not_mem_nil, or_false, exists_eq_or_imp, exists_eq_left]
          exact this
      · intro h
        cases h with
        | mk hv hc h2 h3 ho =>
          rename_i l v
          have hdv := (depthE_mem (get_mem hv)).2
          simp only [depth] at hd hdv
          refine ⟨l, rfl, ⟨⟨v, hv, (ih (depth v) (by omega) v rfl).1.2 hc⟩, ?_, ?_⟩, ?_⟩
          · intro x hx; exact (scalar_iff (cardinality_iff dig) x).2 (h2 x hx)
          · intro x hx; exact (boolC_iff x).2 (h3 x hx)
          · intro e he
            have := ho e he
            simp only [List.mem_cons, List.not_mem_nil, or_false, exists_eq_or_imp, exists_eq_left] at this
            exact this
    refine ⟨?_, restr⟩
    have hw : ∀ t, Lang (.words ["or".toList, "and".toList]) t ↔ (t = "or".toList ∨ t = "and".toList) := by
      intro t; rw [lang_words]; simp
    rw [classExpression, alts_iff (find_ce dig)]
    simp only [List.mem_cons, List.not_mem_nil, or_false, exists_eq_or_imp, exists_eq_left, entries_iff, items_iff, qualifiedName, scalar_iff qualified_iff, scalar_iff hw, scalar_iff (lang_word _)]
    constructor
    · rintro (h | ⟨l, rfl, h⟩ | ⟨l, rfl, h⟩ | ⟨l, rfl, h⟩)
      · exact .name h
      all_goals rw [depth] at hd
      · refine .relationships (fun e he => (h e he).1) (fun e he => ?_)
        have := depthE_mem he
        exact (ih _ (by omega) e.2 rfl).2.1 (h e he).2
      · refine .andOr (fun e he => (h e he).1) (fun e he => ?_) (fun e he ops hops x hx => ?_)
        · obtain ⟨ops, ho, _⟩ := (h e he).2; exact ⟨ops, ho⟩
        · obtain ⟨ops', ho, hall⟩ := (h e he).2
          rw [hops] at ho; cases ho
          have h1 := (depthE_mem he).2
          rw [hops, depth] at h1
          have h2 := depthL_mem hx
          exact (ih _ (by omega) x rfl).1.1 (hall x hx)
      · refine .neg (fun e he => (h e he).1) (fun e he => ?_)
        have := depthE_mem he
        exact (ih _ (by omega) e.2 rfl).1.1 (h e he).2
    · intro h
      cases h with
      | name h => exact Or.inl h
      | relationships h1 h2 =>
        rw [depth] at hd
        refine Or.inr (Or.inl ⟨_, rfl, fun e he => ⟨h1 e he, ?_⟩⟩)
        have := depthE_mem he
        exact (ih _ (by omega) e.2 rfl).2.2 (h2 e he)
      | andOr h1 h2 h3 =>
        rw [depth] at hd
        refine Or.inr (Or.inr (Or.inl ⟨_, rfl, fun e he => ⟨h1 e he, ?_⟩⟩))
        obtain ⟨ops, hops⟩ := h2 e he
        refine ⟨ops, hops, fun x hx => ?_⟩
        have hd1 := (depthE_mem he).2
        rw [hops, depth] at hd1
        have hd2 := depthL_mem hx
        exact (ih _ (by omega) x rfl).1.2 (h3 e he ops hops x hx)
      | neg h1 h2 =>
        rw [depth] at hd
        refine Or.inr (Or.inr (Or.inr ⟨_, rfl, fun e he => ⟨h1 e he, ?_⟩⟩))
        have := depthE_mem he
        exact (ih _ (by omega) e.2 rfl).1.2 (h2 e he)

theorem ce_iff (doc : Yaml) : Conforms (formats dig) doc classExpression ↔ ClassExpr dig doc := (classExpr_iff dig doc).1

/-! ### keys of the formats -/

theorem fits_mand {T : Table} {l : Entries} {k : String} {p : Pat} {P : Yaml → Prop} (h : ∀ v, Conforms T v p ↔ P v) : KeyFits T l ('!' :: k.toList, p) ↔ Mand l k P := by
  unfold KeyFits Mand
  simp only [mandatory, bare, if_true, h]

theorem fits_opt {T : Table} {l : Entries} {k : String} {p : Pat} {P : Yaml → Prop} (hk : mandatory k.toList = false ∧ bare k.toList = k.toList) (h : ∀ v, Conforms T v p ↔ P v) :
    KeyFits T l (k.toList, p) ↔ Opt l k P := by
  unfold KeyFits Opt
  simp only [hk.1, hk.2, h, Bool.false_eq_true, if_false]

theorem only_iff {l : Entries} {ks : List (Text × Pat)} {names : List String} (h : ks.map (fun kp => bare kp.1) = names.map String.toList) :
    (∀ e ∈ l, ∃ kp ∈ ks, e.1 = .str (bare kp.1)) ↔ Only l names := by
  unfold Only
  have : ∀ y : Yaml, (∃ kp ∈ ks, y = .str (bare kp.1)) ↔ ∃ k ∈ names, y = .str k.toList := by
    intro y
    constructor
    · rintro ⟨kp, hkp, rfl⟩
      have hm : bare kp.1 ∈ names.map String.toList := by rw [← h]; exact List.mem_map.2 ⟨kp, hkp, rfl⟩
      obtain ⟨k, hk, he⟩ := List.mem_map.1 hm
      exact ⟨k, hk, by rw [he]⟩
    · rintro ⟨k, hk, rfl⟩
      have hm : k.toList ∈ ks.map (fun kp => bare kp.1) := by rw [h]; exact List.mem_map.2 ⟨k, hk, rfl⟩
      obtain ⟨kp, hkp, he⟩ := List.mem_map.1 hm
      exact ⟨kp, hkp, by rw [he]⟩
  simp only [this]

theorem ceList_iff (v : Yaml) : Conforms (formats dig) v (.items classExpression) ↔ ListOf (ClassExpr dig) v := by
  rw [items_iff]; exact listOf_congr (ce_iff dig) v

theorem common_iff (l : Entries) : (∀ kp ∈ commonKeys, KeyFits (formats dig) l kp) ↔ Common dig l := by
  simp only [commonKeys, List.mem_cons, List.not_mem_nil, or_false, forall_eq_or_imp, forall_eq]
  exact and_congr (fits_opt ⟨rfl, rfl⟩ strC_iff) (fits_mand (k := "subclass_of") (ceList_iff dig))

theorem classPart_iff (l : Entries) : (∀ kp ∈ classKeys, KeyFits (formats dig) l kp) ↔ ClassPart dig l := by
  simp only [classKeys, List.mem_cons, List.not_mem_nil, or_false, forall_eq_or_imp, forall_eq]
  refine and_congr (fits_opt ⟨rfl, rfl⟩ ?_) (and_congr (fits_opt ⟨rfl, rfl⟩ (ceList_iff dig)) (fits_opt ⟨rfl, rfl⟩ (ceList_iff dig)))
  intro v
  rw [entries_iff]
  unfold DictOf
  simp only [qualifiedName, scalar_iff qualified_iff]
  have : ∀ x, Conforms (formats dig) x .any ↔ True := fun x => ⟨fun _ => trivial, fun _ => .any⟩
  simp only [this]

theorem relPart_iff (l : Entries) : (∀ kp ∈ relationshipKeys, KeyFits (formats dig) l kp) ↔ RelationshipPart dig l := by
  simp only [relationshipKeys, List.mem_cons, List.not_mem_nil, or_false, forall_eq_or_imp, forall_eq]
  refine and_congr (fits_opt ⟨rfl, rfl⟩ (scalar_iff qualified_iff)) (and_congr (fits_opt ⟨rfl, rfl⟩ boolC_iff) (and_congr (fits_opt ⟨rfl, rfl⟩ (ce_iff dig))
    (and_congr (fits_opt ⟨rfl, rfl⟩ (ce_iff dig)) (fits_opt ⟨rfl, rfl⟩ ?_))))
  intro v
  rw [items_iff]
  exact listOf_congr (scalar_iff (lang_words characteristics)) v

theorem attrPart_iff (l : Entries) : (∀ kp ∈ attributeKeys dig, KeyFits (formats dig) l kp) ↔ AttributePart dig l := by
  simp only [attributeKeys, List.mem_cons, List.not_mem_nil, or_false, forall_eq]
  exact fits_opt ⟨rfl, rfl⟩ (scalar_iff (datatype_iff dig))

theorem forall_append {α : Type} {a b : List α} {P : α → Prop} : (∀ x ∈ a ++ b, P x) ↔ (∀ x ∈ a, P x) ∧ ∀ x ∈ b, P x := by
  simp only [List.mem_append]
  exact ⟨fun h => ⟨fun x hx => h x (Or.inl hx), fun x hx => h x (Or.inr hx)⟩, fun h x hx => hx.elim (h.1 x) (h.2 x)⟩

theorem entity_iff (doc : Yaml) : Conforms (formats dig) doc (.named "entity_def".toList) ↔ EntityDef dig doc := by
  rw [keys_iff (find_entity dig)]
  unfold EntityDef
  apply exists_congr; intro l
  apply and_congr Iff.rfl
  rw [forall_append, forall_append, forall_append, common_iff, classPart_iff, relPart_iff, attrPart_iff, and_assoc, and_assoc, and_assoc]
  exact and_congr Iff.rfl (and_congr Iff.rfl (and_congr Iff.rfl (and_congr Iff.rfl (only_iff rfl))))

theorem classDef_iff (doc : Yaml) : Conforms (formats dig) doc (.named "class_def".toList) ↔ ClassDef dig doc := by
  rw [keys_iff (find_class dig)]
  unfold ClassDef
  apply exists_congr; intro l
  apply and_congr Iff.rfl
  rw [forall_append, common_iff, classPart_iff, and_assoc]
  exact and_congr Iff.rfl (and_congr Iff.rfl (only_iff rfl))

theorem relDef_iff (doc : Yaml) : Conforms (formats dig) doc (.named "relationship_def".toList) ↔ RelationshipDef dig doc := by
  rw [keys_iff (find_rel dig)]
  unfold RelationshipDef
  apply exists_congr; intro l
  apply and_congr Iff.rfl
  rw [forall_append, common_iff, relPart_iff, and_assoc]
  exact and_congr Iff.rfl (and_congr Iff.rfl (only_iff rfl))

theorem attrDef_iff (doc : Yaml) : Conforms (formats dig) doc (.named "attribute_def".toList) ↔ AttributeDef dig doc := by
  rw [keys_iff (find_attr dig)]
  unfold AttributeDef
  apply exists_congr; intro l
  apply and_congr Iff.rfl
  rw [forall_append, common_iff, attrPart_iff, and_assoc]
  exact and_congr Iff.rfl (and_congr Iff.rfl (only_iff rfl))

theorem document_iff (doc : Yaml) : Conforms (formats dig) doc (.named "/".toList) ↔ Document dig doc := by
  rw [keys_iff (find_doc dig)]
  unfold Document
  apply exists_congr; intro l
  apply and_congr Iff.rfl
  simp only [List.forall_mem_cons, and_assoc]
  have hnil : ∀ P : Text × Pat → Prop, (∀ x ∈ ([] : List (Text × Pat)), P x) ↔ True := fun P => ⟨fun _ => trivial, fun _ x hx => by cases hx⟩
  rw [hnil, true_and]
  refine and_congr (fits_mand (k := "version") (scalar_iff (version_iff dig))) (and_congr (fits_mand (k := "namespace") namespace_iff)
    (and_congr (fits_mand (k := "ontology") ?_) (and_congr (fits_opt ⟨rfl, rfl⟩ (scalar_iff qualified_iff)) (and_congr (fits_opt ⟨rfl, rfl⟩ strC_iff)
    (and_congr (fits_opt ⟨rfl, rfl⟩ ?_) (only_iff rfl))))))
  · intro v
    rw [entries_iff]
    unfold DictOf
    simp only [entityName, scalar_iff nameRe_iff, entity_iff]
  · intro v
    rw [items_iff]
    exact listOf_congr (scalar_iff nameRe_iff) v

/-- C55: `validate(doc)` passes iff the document is a YAML ontology, for all documents that are not nested deeper than half the limit. -/
theorem accepts_exactly_ontologies (limit : Nat) (doc : Yaml) (h : 2 * depth doc + 2 ≤ limit) : validateDoc dig limit doc = .ok () ↔ Document dig doc := by
  unfold validateDoc
  rw [validate_iff _ (formats_closed dig) doc _ (by rw [Pat.Known, find_doc]; rfl) limit h, document_iff]

/-- All others are refused with a ValueError. -/
theorem refuses_others (limit : Nat) (doc : Yaml) (h : 2 * depth doc + 2 ≤ limit) : validateDoc dig limit doc = .error .valueError ↔ ¬ Document dig doc := by
  unfold validateDoc
  rw [validate_refuses _ (formats_closed dig) doc _ (by rw [Pat.Known, find_doc]; rfl) limit h, document_iff]

/-- Whatever the nesting, an accepted document is a YAML ontology. -/
theorem accepted_is_ontology (limit : Nat) (doc : Yaml) (h : validateDoc dig limit doc = .ok ()) : Document dig doc := by
  rw [← document_iff]
  exact (validate_sound _ _ _ _).1 h

/-- The checks of the definition of one entity, once its type is known (`_validate_entity`). -/
theorem entity_formats_exact (limit : Nat) (doc : Yaml) (h : 2 * depth doc + 2 ≤ limit) :
    (validate (formats dig) limit doc (.named "class_def".toList) = .ok () ↔ ClassDef dig doc) ∧
    (validate (formats dig) limit doc (.named "relationship_def".toList) = .ok () ↔ RelationshipDef dig doc) ∧
    (validate (formats dig) limit doc (.named "attribute_def".toList) = .ok () ↔ AttributeDef dig doc) := by
  refine ⟨?_, ?_, ?_⟩
  · rw [validate_iff _ (formats_closed dig) doc _ (by rw [Pat.Known, find_class]; rfl) limit h, classDef_iff]
  · rw [validate_iff _ (formats_closed dig) doc _ (by rw [Pat.Known, find_rel]; rfl) limit h, relDef_iff]
  · rw [validate_iff _ (formats_closed dig) doc _ (by rw [Pat.Known, find_attr]; rfl) limit h, attrDef_iff]

end Osp.Yaml
