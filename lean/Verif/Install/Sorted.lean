import Verif.Install.Sort
/-!
# The order of installation: the documents
-/
namespace Osp.Install
variable {G B R : Type}

/-! ### dictionaries -/

theorem look_nil {α : Type} (k : Text) : look ([] : List (Text × α)) k = none := rfl

theorem look_cons {α : Type} (e : Text × α) (l : List (Text × α)) (k : Text) : look (e :: l) k = if e.1 = k then some e.2 else look l k := by
  simp only [look, List.find?_cons]
  by_cases h : e.1 = k
  · simp [h]
  · simp [h]

theorem look_put {α : Type} (k : Text) (v : α) (l : List (Text × α)) (k' : Text) : look (put k v l) k' = if k' = k then some v else look l k' := by
  induction l with
  | nil =>
    simp only [put, look_cons, look_nil]
    by_cases h : k' = k
    · simp [h]
    · have : ¬ k = k' := fun x => h x.symm
      simp [h, this]
  | cons e l ih =>
    simp only [put]
    by_cases h : e.1 = k
    · simp only [h, if_true, look_cons]
      by_cases h2 : k' = k
      · simp [h2]
      · have : ¬ k = k' := fun x => h2 x.symm
        simp [h2, this]
    · simp only [h, if_false, look_cons, ih]
      by_cases h2 : k' = k
      · subst h2; simp [h]
      · simp [h2]

theorem look_mem {α : Type} {l : List (Text × α)} {k : Text} {v : α} (h : look l k = some v) : (k, v) ∈ l := by
  induction l with
  | nil => cases h
  | cons e l ih =>
    rw [look_cons] at h
    split at h
    · rename_i h1; cases h; rw [← h1]; exact List.mem_cons_self
    · exact List.mem_cons_of_mem _ (ih h)

theorem look_of_mem {α : Type} {l : List (Text × α)} {k : Text} {v : α} (hn : (l.map (·.1)).Nodup) (h : (k, v) ∈ l) : look l k = some v := by
  induction l with
  | nil => cases h
  | cons e l ih =>
    rw [look_cons]
    rcases List.mem_cons.1 h with rfl | h
    · simp
    · simp only [List.map_cons, List.nodup_cons] at hn
      have : e.1 ≠ k := fun he => hn.1 (he ▸ List.mem_map.2 ⟨(k, v), h, rfl⟩)
      simp only [this, if_false]
      exact ih hn.2 h

theorem look_none {α : Type} {l : List (Text × α)} {k : Text} : look l k = none ↔ k ∉ l.map (·.1) := by
  induction l with
  | nil => simp [look_nil]
  | cons e l ih =>
    rw [look_cons]
    simp only [List.map_cons, List.mem_cons, not_or]
    by_cases h : e.1 = k
    · simp [h]
    · simp only [h, if_false, ih]
      constructor
      · exact fun h2 => ⟨fun h3 => h h3.symm, h2⟩
      · exact fun h2 => h2.2

theorem put_keys {α : Type} (k : Text) (v : α) (l : List (Text × α)) : (put k v l).map (·.1) = if k ∈ l.map (·.1) then l.map (·.1) else l.map (·.1) ++ [k] := by
  induction l with
  | nil => simp [put]
  | cons e l ih =>
    simp only [put]
    by_cases h : e.1 = k
    · subst h; simp
    · have h' : ¬ k = e.1 := fun x => h x.symm
      simp only [h, if_false, List.map_cons, ih, List.mem_cons, h', false_or]
      split <;> simp

theorem put_nodup {α : Type} (k : Text) (v : α) {l : List (Text × α)} (h : (l.map (·.1)).Nodup) : ((put k v l).map (·.1)).Nodup := by
  rw [put_keys]
  split
  · exact h
  · rename_i h1
    exact List.nodup_append.2 ⟨h, by simp, by intro a ha b hb; simp at hb; subst hb; intro he; subst he; exact h1 ha⟩

theorem put_mem {α : Type} {k : Text} {v : α} {l : List (Text × α)} {e : Text × α} (h : e ∈ put k v l) : e = (k, v) ∨ e ∈ l := by
  induction l with
  | nil => simp only [put, List.mem_singleton] at h; exact Or.inl h
  | cons a l ih =>
    simp only [put] at h
    split at h
    · rcases List.mem_cons.1 h with h | h
      · exact Or.inl h
      · exact Or.inr (List.mem_cons_of_mem _ h)
    · rcases List.mem_cons.1 h with h | h
      · exact Or.inr (h ▸ List.mem_cons_self)
      · rcases ih h with h | h
        · exact Or.inl h
        · exact Or.inr (List.mem_cons_of_mem _ h)

/-! ### reading the documents -/

theorem getIdentifier_ok {E : Env G B R} {w : World G B R} {f i : Text} : getIdentifier E w f = .ok i ↔ ∃ d, readDoc E w f = .ok d ∧ d.ident = i := by
  unfold getIdentifier
  cases h : readDoc E w f with
  | error e => simp
  | ok d => simp

/-- A list of files with their documents. -/
def Known (E : Env G B R) (w : World G B R) (fs : List Text) (d : List (Text × Text)) : Prop :=
  (d.map (·.1)).Nodup ∧ (∀ e ∈ d, e.2 ∈ fs ∧ getIdentifier E w e.2 = .ok e.1)

theorem identDict_spec {E : Env G B R} {w : World G B R} : ∀ (l fs : List Text) (d d' : List (Text × Text)), (∀ f ∈ l, f ∈ fs) → Known E w fs d → identDict E w l d = .ok d' →
    Known E w fs d' ∧ (∀ x ∈ d.map (·.1), x ∈ d'.map (·.1)) ∧ ∀ f ∈ l, ∃ x ∈ d'.map (·.1), getIdentifier E w f = .ok x := by
  intro l fs
  induction l with
  | nil => intro d d' _ hk h; simp only [identDict, Except.ok.injEq] at h; subst h; exact ⟨hk, fun x hx => hx, by simp⟩
  | cons f l ih =>
    intro d d' hf hk h
    simp only [identDict] at h
    cases hi : getIdentifier E w f with
    | error e => rw [hi] at h; cases h
    | ok i =>
      rw [hi] at h
      have hk2 : Known E w fs (put i f d) := by
        refine ⟨put_nodup i f hk.1, fun e he => ?_⟩
        rcases put_mem he with rfl | he
        · exact ⟨hf f List.mem_cons_self, hi⟩
        · exact hk.2 e he
      obtain ⟨h1, h2, h3⟩ := ih _ _ (fun g hg => hf g (List.mem_cons_of_mem _ hg)) hk2 h
      have hkeys : ∀ x, x = i ∨ x ∈ d.map (·.1) → x ∈ (put i f d).map (·.1) := by
        intro x hx
        rw [put_keys]
        rcases hx with rfl | hx
        · by_cases hm : x ∈ d.map (·.1)
          · simp only [hm, if_true]
          · simp [hm]
        · split
          · exact hx
          · exact List.mem_append_left _ hx
      refine ⟨h1, fun x hx => h2 x (hkeys x (Or.inr hx)), fun g hg => ?_⟩
      rcases List.mem_cons.1 hg with rfl | hg
      · exact ⟨i, h2 i (hkeys i (Or.inl rfl)), hi⟩
      · exact h3 g hg

theorem identDict_total {E : Env G B R} {w : World G B R} : ∀ (l : List Text) (d : List (Text × Text)), (∀ f ∈ l, ∃ x, readDoc E w f = .ok x) → ∃ d', identDict E w l d = .ok d' := by
  intro l
  induction l with
  | nil => exact fun d _ => ⟨d, rfl⟩
  | cons f l ih =>
    intro d h
    obtain ⟨x, hx⟩ := h f List.mem_cons_self
    have : getIdentifier E w f = .ok x.ident := getIdentifier_ok.2 ⟨x, hx, rfl⟩
    simp only [identDict, this]
    exact ih _ (fun g hg => h g (List.mem_cons_of_mem _ hg))

theorem requirements_ok {d : Doc B} {l : List Text} (h : d.requirements = .ok l) (r : Text) : r ∈ l ↔ d.Requires r := by
  unfold Doc.requirements at h
  unfold Doc.Requires
  cases hr : d.reqs with
  | absent => rw [hr] at h; cases h; simp
  | list m => rw [hr] at h; cases h; simp
  | other => rw [hr] at h; cases h

theorem requirements_total {d : Doc B} (h : d.reqs ≠ .other) : ∃ l, d.requirements = .ok l := by
  unfold Doc.requirements
  cases hr : d.reqs with
  | absent => exact ⟨_, rfl⟩
  | list m => exact ⟨_, rfl⟩
  | other => exact absurd hr h

theorem reqDict_spec {E : Env G B R} {w : World G B R} : ∀ (d : List (Text × Text)) (r : List (Text × List Text)), reqDict E w d = .ok r →
    r.map (·.1) = d.map (·.1) ∧ (∀ e ∈ r, ∃ f x, (e.1, f) ∈ d ∧ readDoc E w f = .ok x ∧ ∀ n, n ∈ e.2 ↔ x.Requires n) ∧ ∀ e ∈ d, ∃ x l, readDoc E w e.2 = .ok x ∧ x.requirements = .ok l := by
  intro d
  induction d with
  | nil => intro r h; simp only [reqDict, Except.ok.injEq] at h; subst h; simp
  | cons e d ih =>
    obtain ⟨n, f⟩ := e
    intro r h
    simp only [reqDict] at h
    cases hx : readDoc E w f with
    | error e => rw [hx] at h; cases h
    | ok x =>
      rw [hx] at h
      cases hl : x.requirements with
      | error e => simp only [hl] at h; cases h
      | ok l =>
        simp only [hl] at h
        cases hr : reqDict E w d with
        | error e => rw [hr] at h; cases h
        | ok rest =>
          rw [hr] at h
          simp only [Except.ok.injEq] at h
          subst h
          obtain ⟨h1, h2, h3⟩ := ih rest hr
          refine ⟨by simp [h1], ?_, ?_⟩
          · intro e he
            rcases List.mem_cons.1 he with rfl | he
            · exact ⟨f, x, List.mem_cons_self, hx, requirements_ok hl⟩
            · obtain ⟨g, y, a, b, c⟩ := h2 e he
              exact ⟨g, y, List.mem_cons_of_mem _ a, b, c⟩
          · intro e he
            rcases List.mem_cons.1 he with rfl | he
            · exact ⟨x, l, hx, hl⟩
            · exact h3 e he

theorem reqDict_total {E : Env G B R} {w : World G B R} : ∀ (d : List (Text × Text)), (∀ e ∈ d, ∃ x, readDoc E w e.2 = .ok x ∧ x.reqs ≠ .other) → ∃ r, reqDict E w d = .ok r := by
  intro d
  induction d with
  | nil => exact fun _ => ⟨[], rfl⟩
  | cons e d ih =>
    obtain ⟨n, f⟩ := e
    intro h
    obtain ⟨x, hx, hr⟩ := h _ List.mem_cons_self
    obtain ⟨l, hl⟩ := requirements_total hr
    obtain ⟨r, hr⟩ := ih (fun g hg => h g (List.mem_cons_of_mem _ hg))
    exact ⟨(n, l) :: r, by simp only [reqDict, hx, hl, hr]⟩

/-- The requirement relation on identifiers given by a dictionary from identifiers to files. -/
def DictReq (E : Env G B R) (w : World G B R) (d : List (Text × Text)) (x r : Text) : Prop := ∃ f y, (x, f) ∈ d ∧ readDoc E w f = .ok y ∧ y.Requires r

theorem reqDict_loop {E : Env G B R} {w : World G B R} {d : List (Text × Text)} {r : List (Text × List Text)} (hd : (d.map (·.1)).Nodup) (h : reqDict E w d = .ok r) (inst : List Text) :
    Loop (DictReq E w d) inst [] r := by
  obtain ⟨h1, h2, -⟩ := reqDict_spec d r h
  constructor
  · intro e he n hn
    obtain ⟨f, x, a, b, c⟩ := h2 e he
    exact ⟨f, x, a, b, (c n).1 hn⟩
  · intro e he n hn
    obtain ⟨f, x, a, b, c⟩ := h2 e he
    obtain ⟨f', x', a', b', c'⟩ := hn
    have : f = f' := by
      have p := look_of_mem hd a
      rw [look_of_mem hd a'] at p
      exact (Option.some.inj p).symm
    subst this
    rw [b] at b'
    cases b'
    exact Or.inl ((c n).2 c')

/-! ### the sorted files -/

theorem filterMap_look {d : List (Text × Text)} : ∀ {names : List Text}, (∀ x ∈ names, x ∈ d.map (·.1)) → ∃ es : List (Text × Text), es.map (·.1) = names ∧ names.filterMap (look d) = es.map (·.2) ∧ ∀ e ∈ es, e ∈ d := by
  intro names
  induction names with
  | nil => exact fun _ => ⟨[], rfl, rfl, by simp⟩
  | cons x l ih =>
    intro h
    obtain ⟨es, h1, h2, h3⟩ := ih (fun y hy => h y (List.mem_cons_of_mem _ hy))
    cases hx : look d x with
    | none => exact absurd (h x List.mem_cons_self) (look_none.1 hx)
    | some f =>
      refine ⟨(x, f) :: es, by simp [h1], by simp [hx, h2], ?_⟩
      intro e he
      rcases List.mem_cons.1 he with rfl | he
      · exact look_mem hx
      · exact h3 e he

/-- What sorting guarantees: the sorted list holds, for every identifier of the given files exactly one file with that identifier, after all its requirements. -/
theorem sortFor_ok {E : Env G B R} {w : World G B R} {fs inst order : List Text} (h : sortFor E w fs inst = .ok order) :
    ∃ ds : List (Text × Doc B), ds.map (·.1) = order ∧ (∀ e ∈ ds, e.1 ∈ fs ∧ readDoc E w e.1 = .ok e.2 ∧ e.2.reqs ≠ .other) ∧ (ds.map (·.2.ident)).Nodup ∧
      (∀ f ∈ fs, ∃ d, readDoc E w f = .ok d ∧ d.ident ∈ ds.map (·.2.ident)) ∧ Arranged inst (ds.map (·.2)) := by
  unfold sortFor at h
  cases hd : identDict E w fs [] with
  | error e => rw [hd] at h; cases h
  | ok d =>
    rw [hd] at h
    obtain ⟨hk, -, hall⟩ := identDict_spec fs fs [] d (fun f hf => hf) ⟨by simp, by simp⟩ hd
    cases hr : reqDict E w d with
    | error e => simp only [hr] at h; cases h
    | ok reqs =>
      simp only [hr] at h
      cases ho : rounds reqs.length inst [] reqs with
      | error e => simp only [ho] at h; cases h
      | ok names =>
        simp only [ho, Except.ok.injEq] at h
        subst h
        obtain ⟨hkeys, -, hlisted⟩ := reqDict_spec d reqs hr
        have hn : (reqs.map (·.1)).Nodup := by rw [hkeys]; exact hk.1
        obtain ⟨hin, hperm⟩ := rounds_sound _ [] reqs names (reqDict_loop hk.1 hr inst) hn (inOrder_nil _ _) ho
        rw [List.nil_append, hkeys] at hperm
        obtain ⟨es, he1, he2, he3⟩ := filterMap_look (d := d) (names := names) (fun x hx => hperm.mem_iff.1 hx)
        -- attach the documents
        have hdoc : ∃ ds : List (Text × Doc B), ds.map (fun e => (e.2.ident, e.1)) = es ∧ ∀ e ∈ ds, readDoc E w e.1 = .ok e.2 := by
          clear he1 he2 hin hperm ho
          induction es with
          | nil => exact ⟨[], rfl, by simp⟩
          | cons e l ih =>
            obtain ⟨ds, h1, h2⟩ := ih (fun x hx => he3 x (List.mem_cons_of_mem _ hx))
            obtain ⟨x, hx, hi⟩ := getIdentifier_ok.1 (hk.2 e (he3 e List.mem_cons_self)).2
            refine ⟨(e.2, x) :: ds, by simp [h1, hi], ?_⟩
            intro y hy
            rcases List.mem_cons.1 hy with rfl | hy
            · exact hx
            · exact h2 y hy
        obtain ⟨ds, hd1, hd2⟩ := hdoc
        have hid : ds.map (·.2.ident) = names := by rw [← he1, ← hd1]; simp [List.map_map, Function.comp_def]
        refine ⟨ds, ?_, ?_, ?_, ?_, ?_⟩
        · rw [he2, ← hd1]; simp [List.map_map, Function.comp_def]
        · intro e he
          have hed : (e.2.ident, e.1) ∈ d := he3 _ (by rw [← hd1]; exact List.mem_map.2 ⟨e, he, rfl⟩)
          refine ⟨(hk.2 (e.2.ident, e.1) hed).1, hd2 e he, fun ho => ?_⟩
          obtain ⟨x, l, hx, hl⟩ := hlisted _ hed
          rw [hd2 e he] at hx
          cases hx
          simp [Doc.requirements, ho] at hl
        · rw [hid]; exact hperm.nodup_iff.2 hk.1
        · intro f hf
          obtain ⟨x, hx, hi⟩ := hall f hf
          obtain ⟨y, hy, rfl⟩ := getIdentifier_ok.1 hi
          exact ⟨y, hy, by rw [hid]; exact hperm.mem_iff.2 hx⟩
        · intro b x a hs r hr2
          obtain ⟨b', l', h1, h2, h3⟩ := List.map_eq_append_iff.1 hs
          obtain ⟨e, a', h4, h5, h6⟩ := List.map_eq_cons_iff.1 h3
          subst h1 h2 h4 h5 h6
          have hee : (e.2.ident, e.1) ∈ d := he3 _ (by rw [← hd1]; simp)
          rcases hin (b'.map (·.2.ident)) e.2.ident (a'.map (·.2.ident)) (by rw [← hid]; simp) r
              ⟨e.1, e.2, hee, hd2 e (by simp), hr2⟩ with h7 | h7
          · exact Or.inl h7
          · obtain ⟨y, hy, rfl⟩ := List.mem_map.1 h7
            exact Or.inr ⟨y.2, List.mem_map.2 ⟨y, hy, rfl⟩, rfl⟩

/-- Sorting succeeds exactly if an order exists; otherwise it raises RuntimeError. -/
theorem sortFor_iff {E : Env G B R} {w : World G B R} {fs inst : List Text} (hread : ∀ f ∈ fs, ∃ d, readDoc E w f = .ok d ∧ d.reqs ≠ .other)
    (hone : ∀ d d', DocsOf E w fs d → DocsOf E w fs d' → d.ident = d'.ident → d = d') :
    ((∃ order, sortFor E w fs inst = .ok order) ↔ ∃ docs : List (Doc B), (∀ d, d ∈ docs ↔ DocsOf E w fs d) ∧ Arranged inst docs) ∧
    ((¬ ∃ docs : List (Doc B), (∀ d, d ∈ docs ↔ DocsOf E w fs d) ∧ Arranged inst docs) → sortFor E w fs inst = .error .runtimeError) := by
  have forward : (∃ order, sortFor E w fs inst = .ok order) → ∃ docs : List (Doc B), (∀ d, d ∈ docs ↔ DocsOf E w fs d) ∧ Arranged inst docs := by
    rintro ⟨order, h⟩
    obtain ⟨ds, -, h2, -, h4, h5⟩ := sortFor_ok h
    refine ⟨ds.map (·.2), fun d => ⟨?_, ?_⟩, h5⟩
    · intro hd
      obtain ⟨e, he, rfl⟩ := List.mem_map.1 hd
      exact ⟨e.1, (h2 e he).1, (h2 e he).2.1⟩
    · rintro ⟨f, hf, hd⟩
      obtain ⟨d', hd', hm⟩ := h4 f hf
      rw [hd] at hd'
      cases hd'
      obtain ⟨e, he, hi⟩ := List.mem_map.1 hm
      have : e.2 = d := hone e.2 d ⟨e.1, (h2 e he).1, (h2 e he).2.1⟩ ⟨f, hf, hd⟩ hi
      exact this ▸ List.mem_map.2 ⟨e, he, rfl⟩
  obtain ⟨d, hd⟩ := identDict_total (E := E) (w := w) fs [] (fun f hf => (hread f hf).imp (fun _ h => h.1))
  obtain ⟨hk, -, hall⟩ := identDict_spec fs fs [] d (fun f hf => hf) ⟨by simp, by simp⟩ hd
  obtain ⟨reqs, hr⟩ := reqDict_total (E := E) (w := w) d (fun e he => hread e.2 (hk.2 e he).1)
  obtain ⟨hkeys, -, -⟩ := reqDict_spec d reqs hr
  have hn : (reqs.map (·.1)).Nodup := by rw [hkeys]; exact hk.1
  have hsort : sortFor E w fs inst = (match rounds reqs.length inst [] reqs with
      | .ok order => .ok (order.filterMap (look d))
      | .error e => .error e) := by
    simp only [sortFor, hd, hr]
    cases rounds reqs.length inst [] reqs <;> rfl
  have back : (∃ docs : List (Doc B), (∀ d, d ∈ docs ↔ DocsOf E w fs d) ∧ Arranged inst docs) → ∃ order, sortFor E w fs inst = .ok order := by
    rintro ⟨docs, hm, harr⟩
    have hmem : ∀ x, x ∈ docs.map Doc.ident ↔ x ∈ d.map (·.1) := by
      intro x
      constructor
      · intro hx
        obtain ⟨y, hy, rfl⟩ := List.mem_map.1 hx
        obtain ⟨f, hf, hy⟩ := (hm y).1 hy
        obtain ⟨i, hi, hg⟩ := hall f hf
        rw [getIdentifier_ok.2 ⟨y, hy, rfl⟩] at hg
        cases hg
        exact hi
      · intro hx
        obtain ⟨e, he, rfl⟩ := List.mem_map.1 hx
        obtain ⟨hf, hg⟩ := hk.2 e he
        obtain ⟨y, hy, hi⟩ := getIdentifier_ok.1 hg
        exact List.mem_map.2 ⟨y, (hm y).2 ⟨e.2, hf, hy⟩, hi⟩
    have hin : InOrder (DictReq E w d) inst (docs.map Doc.ident) := by
      intro b x a hs r hreq
      obtain ⟨b', l', h1, h2, h3⟩ := List.map_eq_append_iff.1 hs
      obtain ⟨y, a', h4, h5, h6⟩ := List.map_eq_cons_iff.1 h3
      subst h1 h2 h4 h5 h6
      obtain ⟨f, y', hf, hy', hr'⟩ := hreq
      have hfs := hk.2 _ hf
      have : y' = y := hone y' y ⟨f, hfs.1, hy'⟩ ((hm y).1 (by simp)) (by
        have := hfs.2
        simp only at this
        rw [getIdentifier_ok.2 ⟨y', hy', rfl⟩] at this
        exact Except.ok.inj this)
      subst this
      rcases harr b' y' a' rfl r hr' with h7 | ⟨z, hz, rfl⟩
      · exact Or.inl h7
      · exact Or.inr (List.mem_map.2 ⟨z, hz, rfl⟩)
    obtain ⟨order, ho⟩ := rounds_complete hn (reqDict_loop hk.1 hr inst) (o := docs.map Doc.ident) (by rw [hkeys]; exact fun x hx => (hmem x).2 hx) hin
      (by rw [hkeys]; exact fun x hx => (hmem x).1 hx)
    exact ⟨_, by rw [hsort, ho]⟩
  refine ⟨⟨forward, back⟩, fun hno => ?_⟩
  cases ho : rounds reqs.length inst [] reqs with
  | ok order => exact absurd (forward ⟨_, by rw [hsort, ho]⟩) hno
  | error e =>
    rw [hsort, ho, (rounds_fuel _ _ _ e (Nat.le_refl _) hn (reqDict_loop hk.1 hr inst) ho).1]

end Osp.Install
