import Verif.Show.Props
/-!
# C75: the printed text
-/
namespace Osp.Show
open Osp.Cuds Osp.Search Osp.Utils

/-! ## Specification -/

/-- Specification: a text is shown somewhere in another one. -/
def ShownIn (t text : Text) : Prop := ∃ a b, text = a ++ t ++ b

/-! ## Lemmas -/

theorem ShownIn.refl (t : Text) : ShownIn t t := ⟨[], [], by simp⟩

theorem ShownIn.left {t u : Text} (a : Text) (h : ShownIn t u) : ShownIn t (a ++ u) := by
  obtain ⟨x, y, rfl⟩ := h; exact ⟨a ++ x, y, by simp [List.append_assoc]⟩

theorem ShownIn.right {t u : Text} (b : Text) (h : ShownIn t u) : ShownIn t (u ++ b) := by
  obtain ⟨x, y, rfl⟩ := h; exact ⟨x, y ++ b, by simp [List.append_assoc]⟩

theorem shown_flatMap {α : Type} {f : α → Text} {l : List α} {x : α} {t : Text} (hx : x ∈ l) (h : ShownIn t (f x)) : ShownIn t (l.flatMap f) := by
  induction l with
  | nil => cases hx
  | cons y l ih =>
    rw [List.flatMap_cons]
    rcases List.mem_cons.1 hx with rfl | hx
    · exact h.right _
    · exact (ih hx).left _

theorem shown_join {sep t : Text} : ∀ {l : List Text}, t ∈ l → ShownIn t (joinWith sep l)
  | [], h => by cases h
  | [x], h => by simp only [List.mem_cons, List.not_mem_nil, or_false] at h; subst h; exact ShownIn.refl _
  | x :: y :: l, h => by
    rw [joinWith]
    · rcases List.mem_cons.1 h with rfl | h
      · rw [List.append_assoc]; exact (ShownIn.refl _).right _
      · exact (shown_join h).left _
    · simp

/-- Proof device; nothing in /repo. Whatever is described also has its own lines with uid and class. -/
def Headed (ls : List Line) : Prop := ∀ ind y, ⟨ind, .details y⟩ ∈ ls → (∃ i, ⟨i, .uuid y⟩ ∈ ls) ∧ ∃ i x r, ⟨i, .obj x r y⟩ ∈ ls

theorem Headed.nil : Headed [] := by intro ind y h; cases h

theorem Headed.append {a b : List Line} (ha : Headed a) (hb : Headed b) : Headed (a ++ b) := by
  intro ind y h
  rcases List.mem_append.1 h with h | h
  · obtain ⟨⟨i, h1⟩, i', x, r, h2⟩ := ha ind y h
    exact ⟨⟨i, by simp [h1]⟩, i', x, r, by simp [h2]⟩
  · obtain ⟨⟨i, h1⟩, i', x, r, h2⟩ := hb ind y h
    exact ⟨⟨i, by simp [h1]⟩, i', x, r, by simp [h2]⟩

/-- Proof device; nothing in /repo. -/
def HeadedRes (R : Res) : Prop := ∀ ls v, R = some (.ok (ls, v)) → Headed ls

theorem HeadedRes.seq {R : Res} {k : List Uid → Res} (h : HeadedRes R) (hk : ∀ v, HeadedRes (k v)) : HeadedRes (Res.seq R k) := by
  intro ls v he
  cases R with
  | none => cases he
  | some R =>
    cases R with
    | error e => cases he
    | ok p =>
      obtain ⟨l1, v1⟩ := p
      simp only [Res.seq] at he
      cases hk1 : k v1 with
      | none => rw [hk1] at he; cases he
      | some R =>
        rw [hk1] at he
        cases R with
        | error e => cases he
        | ok q =>
          obtain ⟨l2, v2⟩ := q
          simp only [Option.some.injEq, Except.ok.injEq, Prod.mk.injEq] at he
          rw [← he.1]
          exact (h _ _ rfl).append (hk v1 _ _ hk1)

theorem ppElems_headed (rec : Uid → Text → List Uid → Res) (hrec : ∀ x l v, HeadedRes (rec x l v)) (x : Uid) (r : Rel) (ind : Text) :
    ∀ (es : List (Uid × Rel)) (v : List Uid), HeadedRes (ppElems rec x r ind es v) := by
  intro es
  induction es with
  | nil => intro v ls v' h; cases h; exact Headed.nil
  | cons e es ih =>
    intro v
    obtain ⟨y, r'⟩ := e
    simp only [ppElems]
    split
    · exact ih v
    · split
      · refine HeadedRes.seq ?_ ih
        intro ls v' h
        cases h
        intro i z hz
        simp at hz
      · refine HeadedRes.seq (HeadedRes.seq ?_ (fun v => hrec _ _ v)) ih
        intro ls v' h
        cases h
        intro i z hz
        simp only [List.cons_append, List.nil_append, List.mem_cons, Line.mk.injEq, List.not_mem_nil, or_false, reduceCtorEq, and_false, false_or, Content.details.injEq] at hz
        obtain ⟨_, rfl⟩ := hz
        exact ⟨⟨_, by simp; rfl⟩, _, x, r, List.mem_cons_self⟩

theorem ppRels_headed (T : Texts) (O : Onto) (s : Sess) (rec : Uid → Text → List Uid → Res) (hrec : ∀ x l v, HeadedRes (rec x l v)) (x : Uid) (lvl : Text) :
    ∀ (rs : List Rel) (v : List Uid), HeadedRes (ppRels T O s rec x lvl rs v) := by
  intro rs
  induction rs with
  | nil => intro v ls v' h; cases h; exact Headed.nil
  | cons r rs ih =>
    intro v
    simp only [ppRels]
    split
    · intro ls v' h; cases h
    · refine HeadedRes.seq (HeadedRes.seq ?_ (ppElems_headed rec hrec x r _ _)) ih
      intro ls v' h
      cases h
      intro i z hz
      simp at hz

theorem ppSub_headed (T : Texts) (O : Onto) (s : Sess) : ∀ (fuel : Nat) (x : Uid) (lvl : Text) (v : List Uid), HeadedRes (ppSub T O s fuel x lvl v) := by
  intro fuel
  induction fuel with
  | zero => intro x lvl v ls v' h; cases h
  | succ fuel ih => intro x lvl v; exact ppRels_headed T O s _ ih x lvl _ _

/-- Proof device; nothing in /repo. The objects shown for a relationship come after the line of the relationship, except for one pair. -/
def Titled (e : Option (Uid × Rel)) (ls : List Line) : Prop := ∀ ind x r y, ⟨ind, .obj x r y⟩ ∈ ls → e = some (x, r) ∨ ∃ i, ⟨i, .rel x r⟩ ∈ ls

theorem Titled.append {e : Option (Uid × Rel)} {a b : List Line} (ha : Titled e a) (hb : Titled e b) : Titled e (a ++ b) := by
  intro ind x r y h
  rcases List.mem_append.1 h with h | h
  · rcases ha ind x r y h with h | ⟨i, h⟩
    · exact Or.inl h
    · exact Or.inr ⟨i, by simp [h]⟩
  · rcases hb ind x r y h with h | ⟨i, h⟩
    · exact Or.inl h
    · exact Or.inr ⟨i, by simp [h]⟩

/-- Proof device; nothing in /repo. -/
def TitledRes (e : Option (Uid × Rel)) (R : Res) : Prop := ∀ ls v, R = some (.ok (ls, v)) → Titled e ls

theorem seq_lines {R : Res} {k : List Uid → Res} {ls : List Line} {v : List Uid} (h : Res.seq R k = some (.ok (ls, v))) :
    ∃ l1 v1 l2, R = some (.ok (l1, v1)) ∧ k v1 = some (.ok (l2, v)) ∧ ls = l1 ++ l2 := by
  cases R with
  | none => cases h
  | some R =>
    cases R with
    | error e => cases h
    | ok p =>
      obtain ⟨l1, v1⟩ := p
      simp only [Res.seq] at h
      cases hk1 : k v1 with
      | none => rw [hk1] at h; cases h
      | some R =>
        rw [hk1] at h
        cases R with
        | error e => cases h
        | ok q =>
          obtain ⟨l2, v2⟩ := q
          simp only [Option.some.injEq, Except.ok.injEq, Prod.mk.injEq] at h
          obtain ⟨rfl, rfl⟩ := h
          exact ⟨l1, v1, l2, rfl, hk1, rfl⟩

theorem TitledRes.seq {e : Option (Uid × Rel)} {R : Res} {k : List Uid → Res} (h : TitledRes e R) (hk : ∀ v, TitledRes e (k v)) : TitledRes e (Res.seq R k) := by
  intro ls v he
  obtain ⟨l1, v1, l2, h1, h2, rfl⟩ := seq_lines he
  exact (h _ _ h1).append (hk _ _ _ h2)

theorem TitledRes.weaken {e : Option (Uid × Rel)} {R : Res} (h : TitledRes none R) : TitledRes e R := by
  intro ls v he ind x r y hm
  rcases h ls v he ind x r y hm with h | h
  · cases h
  · exact Or.inr h

theorem ppElems_titled (rec : Uid → Text → List Uid → Res) (hrec : ∀ x l v, TitledRes none (rec x l v)) (x : Uid) (r : Rel) (ind : Text) :
    ∀ (es : List (Uid × Rel)) (v : List Uid), TitledRes (some (x, r)) (ppElems rec x r ind es v) := by
  intro es
  induction es with
  | nil => intro v ls v' h; cases h; intro i a b c hm; cases hm
  | cons e es ih =>
    intro v
    obtain ⟨y, r'⟩ := e
    simp only [ppElems]
    split
    · exact ih v
    · split
      · refine TitledRes.seq ?_ ih
        intro ls v' h
        cases h
        intro i a b c hz
        simp at hz
        exact Or.inl (by rw [hz.2.1, hz.2.2.1])
      · refine TitledRes.seq (TitledRes.seq ?_ (fun v => (hrec _ _ v).weaken)) ih
        intro ls v' h
        cases h
        intro i a b c hz
        simp at hz
        exact Or.inl (by rw [hz.2.1, hz.2.2.1])

theorem ppRels_titled (T : Texts) (O : Onto) (s : Sess) (rec : Uid → Text → List Uid → Res) (hrec : ∀ x l v, TitledRes none (rec x l v)) (x : Uid) (lvl : Text) :
    ∀ (rs : List Rel) (v : List Uid), TitledRes none (ppRels T O s rec x lvl rs v) := by
  intro rs
  induction rs with
  | nil => intro v ls v' h; cases h; intro i a b c hm; cases hm
  | cons r rs ih =>
    intro v
    simp only [ppRels]
    split
    · intro ls v' h; cases h
    · refine TitledRes.seq ?_ ih
      intro ls v' h
      obtain ⟨l1, v1, l2, h1, h2, rfl⟩ := seq_lines h
      cases h1
      intro i a b c hm
      have hm : (⟨i, .obj a b c⟩ : Line) ∈ l2 := by
        rcases List.mem_append.1 hm with hm | hm
        · simp at hm
        · exact hm
      rcases ppElems_titled rec hrec x r _ _ _ _ _ h2 i a b c hm with h | ⟨i', h⟩
      · simp only [Option.some.injEq, Prod.mk.injEq] at h
        obtain ⟨rfl, rfl⟩ := h
        exact Or.inr ⟨lvl, by simp⟩
      · exact Or.inr ⟨i', by simp [h]⟩

theorem ppSub_titled (T : Texts) (O : Onto) (s : Sess) : ∀ (fuel : Nat) (x : Uid) (lvl : Text) (v : List Uid), TitledRes none (ppSub T O s fuel x lvl v) := by
  intro fuel
  induction fuel with
  | zero => intro x lvl v ls v' h; cases h
  | succ fuel ih => intro x lvl v; exact ppRels_titled T O s _ ih x lvl _ _

theorem mem_shownLinks {ls : List Line} {x y : Uid} {r : Rel} (h : (x, r, y) ∈ shownLinks ls) : ∃ ind, ⟨ind, .obj x r y⟩ ∈ ls := by
  unfold shownLinks at h
  obtain ⟨⟨ind, w⟩, h1, h2⟩ := List.mem_filterMap.1 h
  cases w <;> simp at h2
  obtain ⟨rfl, rfl, rfl⟩ := h2
  exact ⟨ind, h1⟩

theorem mem_valuesOf {T : Texts} {s : Sess} {x : Uid} {a : Attr} {v : Val} (h : (⟨x, .attr a, .val v⟩ : Triple) ∈ s.g) (hn : T.argname a ≠ "name".toList) :
    T.argname a ++ ": ".toList ++ T.val v ∈ valuesOf T s x := by
  unfold valuesOf
  refine List.mem_filterMap.2 ⟨(a, v), ?_, by simp only [hn, ne_eq, not_false_eq_true, if_true]⟩
  refine (sortBy_perm _ _).mem_iff.2 (List.mem_filterMap.2 ⟨⟨x, .attr a, .val v⟩, ?_, rfl⟩)
  simp [Graph.triples, Triple.matchesPat, h]

theorem mem_described {ls : List Line} {x : Uid} (h : x ∈ described ls) : ∃ ind, ⟨ind, .details x⟩ ∈ ls := by
  unfold described at h
  obtain ⟨⟨ind, w⟩, h1, h2⟩ := List.mem_filterMap.1 h
  cases w <;> simp at h2
  subst h2
  exact ⟨ind, h1⟩

theorem shown_flatten {t u : Text} : ∀ {l : List Text}, u ∈ l → ShownIn t u → ShownIn t l.flatten
  | [], h, _ => by cases h
  | x :: l, h, ht => by
    rw [List.flatten_cons]
    rcases List.mem_cons.1 h with rfl | h
    · exact ht.right _
    · exact (shown_flatten h ht).left _

theorem header_parts (a b c d e f g h i j k l : Text) : a ++ b ++ c ++ d ++ e ++ f ++ g ++ h ++ i ++ j ++ k ++ l = [a, b, c ++ d, e, f, g, h, i, j, k, l].flatten := by
  simp [List.append_assoc]

/-! ## Theorem -/

/-- **C75.** The printed text shows, for every object that the root reaches over active relationships, its uid, its class, its name if it has one, and every other attribute with its value;
and for every active relationship of such an object the relationship. -/
theorem pretty_print_text {T : Texts} {O : Onto} (hW : O.WF) (hrefl : ∀ r, O.subRel r r = true) {s : Sess} (hs : Reachable O s) (root : Uid) (hroot : root ∈ s.reg)
    (fuel : Nat) (hf : s.reg.length + 1 ≤ fuel) (hc : ∀ x, Reaches O s (some O.active) root x → ¬ Clash T O s x) :
    ∃ text, prettyPrint T O s fuel root = some (.ok text) ∧
      ∀ x, Reaches O s (some O.active) root x →
        ShownIn ("uuid: ".toList ++ Iri.uuidStr x) text ∧
        ShownIn (T.cls (oclass s.g x)) text ∧
        (∀ v, getAttr O s x T.nameAttr = .ok v → ShownIn (" named <".toList ++ T.val v ++ ">:".toList) text) ∧
        (∀ a v, (⟨x, .attr a, .val v⟩ : Triple) ∈ s.g → T.argname a ≠ "name".toList → ShownIn (T.argname a ++ ": ".toList ++ T.val v) text) ∧
        ∀ r y, (⟨x, .rel r, .cuds y⟩ : Triple) ∈ s.g → O.subRel r O.active = true → ShownIn ("|_Relationship ".toList ++ T.rel r ++ ":".toList) text := by
  obtain ⟨ls, hls, _, hd, _, hlk, _⟩ := pretty_print_exact hW hrefl hs root hroot fuel hf hc
  have hh : Headed ls ∧ Titled none ls := by
    unfold ppLines at hls
    cases hp : ppSub T O s fuel root "\n  ".toList [] with
    | none => rw [hp] at hls; cases hls
    | some R =>
      rw [hp] at hls
      cases R with
      | error e => simp at hls
      | ok p =>
        obtain ⟨l, v⟩ := p
        simp only [Option.map_some, Option.some.injEq, Except.ok.injEq] at hls
        exact hls ▸ ⟨ppSub_headed T O s fuel root _ _ l v hp, ppSub_titled T O s fuel root _ _ l v hp⟩
  refine ⟨ppHeader T O s root ++ ls.flatMap (Line.text T O s) ++ "\n".toList, by unfold prettyPrint; rw [hls]; rfl, ?_⟩
  have inLines : ∀ {l : Line} {t : Text}, l ∈ ls → ShownIn t (l.text T O s) → ShownIn t (ppHeader T O s root ++ ls.flatMap (Line.text T O s) ++ "\n".toList) := by
    intro l t hl ht
    exact ((shown_flatMap hl ht).left _).right _
  have inHead : ∀ {t : Text}, ShownIn t (ppHeader T O s root) → ShownIn t (ppHeader T O s root ++ ls.flatMap (Line.text T O s) ++ "\n".toList) := fun h => (h.right _).right _
  intro x hx
  have hrel : ∀ r y, (⟨x, .rel r, .cuds y⟩ : Triple) ∈ s.g → O.subRel r O.active = true →
      ShownIn ("|_Relationship ".toList ++ T.rel r ++ ":".toList) (ppHeader T O s root ++ ls.flatMap (Line.text T O s) ++ "\n".toList) := by
    intro r y h1 h2
    obtain ⟨ind, hm⟩ := mem_shownLinks ((hlk x r y).2 ⟨hx, h1, h2⟩)
    rcases hh.2 _ _ _ _ hm with h | ⟨i, h⟩
    · cases h
    · exact inLines h ⟨i ++ [' '], [], by simp [Line.text]⟩
  by_cases hr : x = root
  · subst hr
    refine ⟨inHead ?_, inHead ?_, ?_, ?_, hrel⟩
    · unfold ppHeader
      simp only
      rw [header_parts]
      refine shown_flatten (u := "\n  uuid: ".toList ++ Iri.uuidStr x) (by simp) ?_
      exact ⟨"\n  ".toList, [], by simp⟩
    · unfold ppHeader
      simp only
      rw [header_parts]
      exact shown_flatten (u := T.cls (oclass s.g x)) (by simp) (ShownIn.refl _)
    · intro v hv
      apply inHead
      have hn : nameOf T O s x = some (T.val v) := by unfold nameOf; rw [hv]
      unfold ppHeader
      simp only [hn]
      rw [header_parts]
      exact shown_flatten (u := " named <".toList ++ T.val v ++ ">:".toList) (by simp) (ShownIn.refl _)
    · intro a v ht hn
      apply inHead
      have hm := mem_valuesOf ht hn
      unfold ppHeader
      cases hv : valuesOf T s x with
      | nil => rw [hv] at hm; cases hm
      | cons y l =>
        rw [hv] at hm
        simp only
        rw [header_parts]
        exact shown_flatten (u := "\n  values: ".toList ++ joinWith "\n          ".toList (y :: l)) (by simp) ((shown_join hm).left _)
  · obtain ⟨ind, hl⟩ := mem_described ((hd x).2 ⟨hx, hr⟩)
    obtain ⟨⟨i, hu⟩, i', z, r, ho⟩ := hh.1 ind x hl
    refine ⟨inLines hu ?_, inLines ho ?_, ?_, ?_, hrel⟩
    · show ShownIn _ (i ++ "uuid: ".toList ++ Iri.uuidStr x)
      rw [List.append_assoc]
      exact (ShownIn.refl _).left _
    · show ShownIn _ (i' ++ objName T O s x)
      unfold objName
      exact (((((ShownIn.refl _).left _).right _).right _).left _)
    · intro v hv
      apply inLines ho
      show ShownIn _ (i' ++ objName T O s x)
      have hn : nameOf T O s x = some (T.val v) := by unfold nameOf; rw [hv]
      unfold objName
      simp only [hn]
      exact ((ShownIn.refl _).left _).left _
    · intro a v ht hn
      apply inLines hl
      have hm := mem_valuesOf ht hn
      simp only [Line.text]
      cases hv : valuesOf T s x with
      | nil => rw [hv] at hm; cases hm
      | cons y l =>
        rw [hv] at hm
        simp only
        exact (shown_join hm).left _

end Osp.Show
