import Verif.Install.Pipeline
/-!
# C34, C35: installing, replacing and uninstalling packages
-/
namespace Osp.Install
variable {G B R : Type}

/-! ### which files are taken -/

theorem toRemove_ok {E : Env G B R} {w : World G B R} {inst : List (Text × Text)} : ∀ (args rs : List Text), toRemove E w inst args = .ok rs →
    (∀ i, i ∈ rs ↔ ∃ a ∈ args, meant E w a = .ok i) ∧ ∀ a ∈ args, ∃ i, meant E w a = .ok i ∧ (look inst i).isSome := by
  intro args
  induction args with
  | nil => intro rs h; simp only [toRemove, Except.ok.injEq] at h; subst h; simp
  | cons a l ih =>
    intro rs h
    simp only [toRemove] at h
    cases hm : meant E w a with
    | error e => rw [hm] at h; cases h
    | ok x =>
      rw [hm] at h
      simp only at h
      split at h
      · rename_i hx
        cases hr : toRemove E w inst l with
        | error e => rw [hr] at h; cases h
        | ok r =>
          rw [hr] at h
          simp only [Except.ok.injEq] at h
          subst h
          obtain ⟨h1, h2⟩ := ih r hr
          constructor
          · intro i
            rw [List.mem_cons, h1]
            constructor
            · rintro (rfl | ⟨b, hb, hi⟩)
              · exact ⟨a, List.mem_cons_self, hm⟩
              · exact ⟨b, List.mem_cons_of_mem _ hb, hi⟩
            · rintro ⟨b, hb, hi⟩
              rcases List.mem_cons.1 hb with rfl | hb
              · rw [hm] at hi; cases hi; exact Or.inl rfl
              · exact Or.inr ⟨b, hb, hi⟩
          · intro b hb
            rcases List.mem_cons.1 hb with rfl | hb
            · exact ⟨x, hm, hx⟩
            · exact h2 b hb
      · cases h

theorem toRemove_total {E : Env G B R} {w : World G B R} {inst : List (Text × Text)} : ∀ (args : List Text), (∀ a ∈ args, ∃ i, meant E w a = .ok i ∧ (look inst i).isSome) → ∃ rs, toRemove E w inst args = .ok rs := by
  intro args
  induction args with
  | nil => exact fun _ => ⟨[], rfl⟩
  | cons a l ih =>
    intro h
    obtain ⟨i, hi, hs⟩ := h a List.mem_cons_self
    obtain ⟨rs, hr⟩ := ih (fun b hb => h b (List.mem_cons_of_mem _ hb))
    exact ⟨i :: rs, by simp only [toRemove, hi, hs, if_true, hr]⟩

/-- The files of the packages to keep: those of the installed packages not meant by an argument. -/
theorem remaining_ok {E : Env G B R} (hE : Fair E) {w : World G B R} (ht : Tidy w.dir) {args fs : List Text} (h : remaining E w args = .ok fs) :
    (∀ a ∈ args, ∃ i d, meant E w a = .ok i ∧ w.docOf i = some d) ∧
    ∀ p, p ∈ fs ↔ ∃ i d, w.docOf i = some d ∧ (∀ a ∈ args, meant E w a ≠ .ok i) ∧ p = join E.path (i ++ dotYml) := by
  unfold remaining at h
  simp only at h
  cases hr : toRemove E w (toDict (E.enumP (w.packages E))) args with
  | error e => rw [hr] at h; cases h
  | ok rs =>
    rw [hr] at h
    simp only [Except.ok.injEq] at h
    obtain ⟨h1, h2⟩ := toRemove_ok args rs hr
    constructor
    · intro a ha
      obtain ⟨i, hi, hs⟩ := h2 a ha
      obtain ⟨d, hd⟩ := (look_inst hE ht i).1 hs
      exact ⟨i, d, hi, hd⟩
    · intro p
      subst h
      simp only [List.mem_map, List.mem_filter, decide_eq_true_eq]
      rw [(inst_dict hE ht).1]
      constructor
      · rintro ⟨e, ⟨he, hn⟩, rfl⟩
        obtain ⟨d, hd, hp⟩ := (mem_packages (i := e.1) (p := e.2) ht).1 (((hE.pairs _).2 e).1 he)
        exact ⟨e.1, d, hd, fun a ha hm => hn ((h1 e.1).2 ⟨a, ha, hm⟩), hp⟩
      · rintro ⟨i, d, hd, hn, rfl⟩
        refine ⟨(i, _), ⟨((hE.pairs _).2 _).2 ((mem_packages ht).2 ⟨d, hd, rfl⟩), fun hi => ?_⟩, rfl⟩
        obtain ⟨a, ha, hm⟩ := (h1 i).1 hi
        exact hn a ha hm

theorem newLoop_ok {E : Env G B R} {w : World G B R} : ∀ (l res fs : List Text), newLoop E w l res = .ok fs →
    (∀ f ∈ l, ∃ i, getIdentifier E w f = .ok i) ∧ ∀ x, x ∈ fs ↔ x ∈ res ∧ ¬ (x ∈ l ∧ ∃ i ∈ w.installed E, getIdentifier E w x = .ok i) := by
  intro l
  induction l with
  | nil => intro res fs h; simp only [newLoop, Except.ok.injEq] at h; subst h; simp
  | cons f l ih =>
    intro res fs h
    simp only [newLoop] at h
    cases hi : getIdentifier E w f with
    | error e => rw [hi] at h; cases h
    | ok i =>
      rw [hi] at h
      simp only at h
      split at h
      · rename_i hm
        split at h
        · obtain ⟨h1, h2⟩ := ih _ _ h
          constructor
          · intro g hg
            rcases List.mem_cons.1 hg with rfl | hg
            · exact ⟨i, hi⟩
            · exact h1 g hg
          · intro x
            rw [h2 x]
            simp only [List.mem_filter, decide_eq_true_eq, List.mem_cons]
            by_cases hx : x = f
            · subst hx
              constructor
              · rintro ⟨⟨-, hne⟩, -⟩; exact absurd rfl hne
              · rintro ⟨-, hne⟩; exact absurd ⟨Or.inl rfl, i, hm, hi⟩ hne
            · simp [hx]
        · cases h
      · rename_i hm
        obtain ⟨h1, h2⟩ := ih _ _ h
        constructor
        · intro g hg
          rcases List.mem_cons.1 hg with rfl | hg
          · exact ⟨i, hi⟩
          · exact h1 g hg
        · intro x
          rw [h2 x]
          simp only [List.mem_cons]
          by_cases hx : x = f
          · subst hx
            have : ¬ ∃ j ∈ w.installed E, getIdentifier E w x = .ok j := by
              rintro ⟨j, hj, hj2⟩
              rw [hi] at hj2
              cases hj2
              exact hm hj
            simp [this]
          · simp [hx]

/-- `install` takes exactly the requested files whose package is not installed. -/
theorem newPackages_ok {E : Env G B R} (hE : Fair E) {w : World G B R} {files fs : List Text} (h : newPackages E w files = .ok fs) :
    (∀ f ∈ files, ∃ d, readDoc E w f = .ok d) ∧ ∀ x, x ∈ fs ↔ x ∈ files ∧ ∀ d, readDoc E w x = .ok d → d.ident ∉ w.installed E := by
  obtain ⟨h1, h2⟩ := newLoop_ok _ _ _ h
  refine ⟨fun f hf => ?_, fun x => ?_⟩
  · obtain ⟨i, hi⟩ := h1 f hf
    obtain ⟨d, hd, -⟩ := getIdentifier_ok.1 hi
    exact ⟨d, hd⟩
  · rw [h2 x, (hE.files files).2]
    constructor
    · rintro ⟨ha, hb⟩
      exact ⟨ha, fun d hd hm => hb ⟨ha, d.ident, hm, getIdentifier_ok.2 ⟨d, hd, rfl⟩⟩⟩
    · rintro ⟨ha, hb⟩
      refine ⟨ha, ?_⟩
      rintro ⟨-, i, hi, hg⟩
      obtain ⟨d, hd, rfl⟩ := getIdentifier_ok.1 hg
      exact hb d hd hi

theorem replaceLoop_spec {E : Env G B R} {w : World G B R} : ∀ (l : List Text) (d d' : List (Text × Text)), (d.map (·.1)).Nodup → replaceLoop E w l d = .ok d' →
    (d'.map (·.1)).Nodup ∧ (∀ f ∈ l, ∃ i, getIdentifier E w f = .ok i) ∧
    (∀ i p, look d' i = some p → (p ∈ l ∧ getIdentifier E w p = .ok i) ∨ (look d i = some p ∧ ∀ f ∈ l, getIdentifier E w f ≠ .ok i)) ∧
    (∀ i, (look d i).isSome ∨ (∃ f ∈ l, getIdentifier E w f = .ok i) → (look d' i).isSome) := by
  intro l
  induction l with
  | nil =>
    intro d d' hn h
    simp only [replaceLoop, Except.ok.injEq] at h
    subst h
    exact ⟨hn, by simp, fun i p hp => Or.inr ⟨hp, by simp⟩, fun i hi => by simpa using hi⟩
  | cons f l ih =>
    intro d d' hn h
    simp only [replaceLoop] at h
    cases hi : getIdentifier E w f with
    | error e => rw [hi] at h; cases h
    | ok j =>
      rw [hi] at h
      obtain ⟨h1, h2, h3, h4⟩ := ih _ _ (put_nodup j f hn) h
      refine ⟨h1, ?_, ?_, ?_⟩
      · intro g hg
        rcases List.mem_cons.1 hg with rfl | hg
        · exact ⟨j, hi⟩
        · exact h2 g hg
      · intro i p hp
        rcases h3 i p hp with ⟨hm, hg⟩ | ⟨hl, hno⟩
        · exact Or.inl ⟨List.mem_cons_of_mem _ hm, hg⟩
        · rw [look_put] at hl
          split at hl
          · rename_i hij
            subst hij
            cases hl
            exact Or.inl ⟨List.mem_cons_self, hi⟩
          · rename_i hij
            refine Or.inr ⟨hl, fun g hg he => ?_⟩
            rcases List.mem_cons.1 hg with rfl | hg
            · rw [hi] at he; cases he; exact hij rfl
            · exact hno g hg he
      · intro i hcase
        refine h4 i ?_
        rw [look_put]
        split
        · exact Or.inl rfl
        · rename_i hij
          rcases hcase with hc | ⟨g, hg, hc⟩
          · exact Or.inl hc
          · rcases List.mem_cons.1 hg with rfl | hg
            · rw [hi] at hc; cases hc; exact absurd rfl hij
            · exact Or.inr ⟨g, hg, hc⟩

/-- `install_overwrite` takes the requested files and the installed packages they do not replace. -/
theorem replaced_ok {E : Env G B R} (hE : Fair E) {w : World G B R} (ht : Tidy w.dir) {files fs : List Text} (h : replaced E w files = .ok fs) :
    (∀ f ∈ files, ∃ d, readDoc E w f = .ok d) ∧
    (∀ p ∈ fs, p ∈ files ∨ ∃ i d, w.docOf i = some d ∧ (∀ f ∈ files, getIdentifier E w f ≠ .ok i) ∧ p = join E.path (i ++ dotYml)) ∧
    (∀ i, (∃ d, w.docOf i = some d) ∨ (∃ f ∈ files, getIdentifier E w f = .ok i) → ∃ p ∈ fs, getIdentifier E w p = .ok i) := by
  unfold replaced at h
  cases hr : replaceLoop E w files (toDict (E.enumP (w.packages E))) with
  | error e => rw [hr] at h; cases h
  | ok d =>
    rw [hr] at h
    simp only [Except.ok.injEq] at h
    subst h
    obtain ⟨hdict, hnd⟩ := inst_dict hE ht
    obtain ⟨h1, h2, h3, h4⟩ := replaceLoop_spec files _ d (by rw [hdict]; exact hnd) hr
    have hold : ∀ i p, look (toDict (E.enumP (w.packages E))) i = some p → ∃ x, w.docOf i = some x ∧ p = join E.path (i ++ dotYml) := by
      intro i p hp
      rw [hdict] at hp
      exact (mem_packages ht).1 (((hE.pairs _).2 _).1 (look_mem hp))
    refine ⟨?_, ?_, ?_⟩
    · intro f hf
      obtain ⟨i, hi⟩ := h2 f hf
      obtain ⟨x, hx, -⟩ := getIdentifier_ok.1 hi
      exact ⟨x, hx⟩
    · intro p hp
      obtain ⟨e, he, rfl⟩ := List.mem_map.1 hp
      rcases h3 e.1 e.2 (look_of_mem h1 he) with ⟨hm, -⟩ | ⟨hl, hno⟩
      · exact Or.inl hm
      · obtain ⟨x, hx, hp⟩ := hold _ _ hl
        exact Or.inr ⟨e.1, x, hx, hno, hp⟩
    · intro i hcase
      have : (look d i).isSome := h4 i (by
        rcases hcase with hc | hc
        · exact Or.inl ((look_inst hE ht i).2 hc)
        · exact Or.inr hc)
      obtain ⟨p, hp⟩ := Option.isSome_iff_exists.1 this
      refine ⟨p, List.mem_map.2 ⟨(i, p), look_mem hp, rfl⟩, ?_⟩
      rcases h3 i p hp with ⟨-, hg⟩ | ⟨hl, -⟩
      · exact hg
      · obtain ⟨x, hx, rfl⟩ := hold _ _ hl
        exact getIdentifier_ok.2 ⟨x, readDoc_installed hE ht hx, (ht.ident hx).1⟩

/-! ### the operations -/

theorem stamp_installed {dir : List (Text × File B R)} (ht : Tidy dir) {i : Text} {d : Doc B} (hd : docIn dir i = some d) : d.stamp = d := by
  obtain ⟨h1, -, -, h3⟩ := ht.ident hd
  unfold Doc.stamp
  split
  · rename_i ho
    obtain ⟨-, h4, -⟩ := h3 ho
    rw [h1, ← h4]
  · rfl

/-- The state of the installation: a tidy directory whose packages have their requirements installed. -/
structure Good (w : World G B R) : Prop where
  tidy : Tidy w.dir
  closed : Closed w.dir
  undotted : Undotted w

/-- C35: an argument of `uninstall` that is the path of an existing file with the ending .yml means the package of the document in that file; any other argument means the package of this name. -/
theorem meant_exact (E : Env G B R) (w : World G B R) (arg i : Text) : meant E w arg = .ok i ↔
    ((∃ n, arg = n ++ ".yml".toList) ∧ (∃ f, w.read E arg = some f) ∧ ∃ d, readDoc E w arg = .ok d ∧ d.ident = i) ∨
    (¬ ((∃ n, arg = n ++ ".yml".toList) ∧ ∃ f, w.read E arg = some f) ∧ arg = i) := by
  have hends : endsWith arg dotYml = true ↔ ∃ n, arg = n ++ ".yml".toList := by
    unfold endsWith
    rw [List.isPrefixOf_iff_prefix]
    constructor
    · rintro ⟨t, ht⟩
      have := congrArg List.reverse ht
      rw [List.reverse_append, List.reverse_reverse, List.reverse_reverse] at this
      exact ⟨t.reverse, this.symm⟩
    · rintro ⟨n, rfl⟩
      exact ⟨n.reverse, by rw [List.reverse_append]; rfl⟩
  have hread : (w.read E arg).isSome = true ↔ ∃ f, w.read E arg = some f := Option.isSome_iff_exists
  have hc : (endsWith arg dotYml && (w.read E arg).isSome) = true ↔ (∃ n, arg = n ++ ".yml".toList) ∧ ∃ f, w.read E arg = some f := by
    rw [Bool.and_eq_true, hends, hread]
  unfold meant
  by_cases h : (endsWith arg dotYml && (w.read E arg).isSome) = true
  · rw [if_pos h]
    have h' := hc.1 h
    constructor
    · intro hi
      refine Or.inl ⟨h'.1, h'.2, ?_⟩
      unfold getIdentifier at hi
      split at hi
      · rename_i d hd
        injection hi with hi
        exact ⟨d, hd, hi⟩
      · cases hi
    · rintro (⟨_, _, d, hd, rfl⟩ | ⟨hn, _⟩)
      · unfold getIdentifier
        rw [hd]
      · exact absurd h' hn
  · rw [if_neg h]
    have h' := fun k => h (hc.2 k)
    constructor
    · intro hi
      injection hi with hi
      exact Or.inr ⟨h', hi⟩
    · rintro (⟨h1, h2, _⟩ | ⟨_, rfl⟩)
      · exact absurd ⟨h1, h2⟩ h'
      · rfl

/-- C35: after a successful `uninstall` exactly the packages meant are gone; the others are there with the same documents. The registry holds what reading them, each after its requirements,
gives on top of CUBA, and this is what is saved. -/
theorem uninstall_exact (E : Env G B R) (hE : Fair E) (w w' : World G B R) (args : List Text) (hw : Good w) (h : uninstall E w args = (w', none)) :
    (∀ a ∈ args, ∃ i d, meant E w a = .ok i ∧ w.docOf i = some d) ∧
    (∀ i, (∃ a ∈ args, meant E w a = .ok i) → w'.docOf i = none) ∧
    (∀ i, (∀ a ∈ args, meant E w a ≠ .ok i) → w'.docOf i = w.docOf i) ∧
    (∃ docs, Loads E w E.cuba (docs.map (fun d => join E.path (d.ident ++ dotYml))) w'.graph ∧ (docs.map Doc.ident).Nodup ∧ (∀ d, d ∈ docs ↔ ∃ i, w'.docOf i = some d) ∧ Arranged [] docs) ∧
    w'.names = w'.graph ∧ look w'.dir graphXml = some (.rdf xml (E.dump w'.graph)) := by
  rcases install'_cases h with ⟨e, ho, -⟩ | ⟨fs, hf, hcase⟩
  · cases ho
  rcases hcase with ⟨e, ho, -⟩ | ⟨order, hs, hcase⟩
  · cases ho
  rcases hcase with ⟨e, P, ho, -⟩ | ⟨P, hp, dir, hst, rfl⟩
  · cases ho
  simp only [if_true] at hs hst
  have ht : Tidy (w.begin E true).dir := hw.tidy
  obtain ⟨hargs, hfs⟩ := remaining_ok hE ht hf
  obtain ⟨hl, ds, b⟩ := batch hs hp
  have hread : Read P.graphs P.docs := b.read (fun f d hd => undotted_readDoc hE hw.tidy hw.undotted f d hd)
  obtain ⟨-, hd1, hd2⟩ := tidy_stored hread (List.Sublist.refl _) tidy_nil hst
  -- the documents of the batch
  have hmem : ∀ e ∈ ds, ∃ i, w.docOf i = some e.2 ∧ e.2.ident = i ∧ ∀ a ∈ args, meant E w a ≠ .ok i := by
    intro e he
    obtain ⟨hm, hrd⟩ := b.mem e he
    obtain ⟨i, d, hd, hn, hp⟩ := (hfs e.1).1 hm
    rw [hp, readDoc_installed hE ht hd] at hrd
    cases hrd
    exact ⟨i, hd, (ht.ident hd).1, hn⟩
  have hkeep : ∀ i d, w.docOf i = some d → (∀ a ∈ args, meant E w a ≠ .ok i) → d ∈ P.docs := by
    intro i d hd hn
    obtain ⟨d', hd', hid⟩ := b.all _ ((hfs (join E.path (i ++ dotYml))).2 ⟨i, d, hd, hn, rfl⟩)
    rw [readDoc_installed hE ht hd] at hd'
    cases hd'
    obtain ⟨e, he, hid⟩ := List.mem_map.1 hid
    obtain ⟨j, hj, hj2, -⟩ := hmem e he
    have : j = i := by rw [← hj2, hid]; exact (ht.ident hd).1
    subst this
    rw [hj] at hd
    cases hd
    rw [b.docs]
    exact List.mem_map.2 ⟨e, he, rfl⟩
  have hdoc : ∀ i, World.docOf ({ w.begin E true with dir := if (none : Option PyErr) = none then storeReg E P.graph dir else dir, graph := P.graph, names := P.graph } : World G B R) i = docIn dir i := by
    intro i
    rw [docOf_eq]
    exact docIn_storeReg E P.graph dir i
  have hgone : ∀ i, (∃ a ∈ args, meant E w a = .ok i) → docIn dir i = none := by
    rintro i ⟨a, ha, hm⟩
    rw [hd2 i]
    · rfl
    · rw [b.idents]
      intro hi
      obtain ⟨e, he, hid⟩ := List.mem_map.1 hi
      obtain ⟨j, -, hj2, hn⟩ := hmem e he
      exact hn a ha (by rw [hm, ← hj2, hid])
  have hsame : ∀ i, (∀ a ∈ args, meant E w a ≠ .ok i) → docIn dir i = w.docOf i := by
    intro i hn
    cases hd : w.docOf i with
    | some d =>
      have := hd1 d (hkeep i d hd hn)
      rw [(ht.ident hd).1, stamp_installed ht hd] at this
      exact this
    | none =>
      rw [hd2 i]
      · rfl
      · rw [b.idents]
        intro hi
        obtain ⟨e, he, hid⟩ := List.mem_map.1 hi
        obtain ⟨j, hj, hj2, -⟩ := hmem e he
        have : j = i := by rw [← hj2, hid]
        subst this
        rw [hj] at hd
        cases hd
  refine ⟨hargs, fun i hi => by rw [hdoc]; exact hgone i hi, fun i hi => by rw [hdoc]; exact hsame i hi, ⟨P.docs, ?_, hread.once, ?_, ?_⟩, rfl, ?_⟩
  · have : P.docs.map (fun d => join E.path (d.ident ++ dotYml)) = order := by
      rw [← b.order, b.docs, List.map_map]
      refine List.map_congr_left (fun e he => ?_)
      obtain ⟨hm, hrd⟩ := b.mem e he
      obtain ⟨i, d, hd, hn, hp⟩ := (hfs e.1).1 hm
      rw [hp, readDoc_installed hE ht hd] at hrd
      cases hrd
      simp only [Function.comp_apply, (ht.ident hd).1, hp]
    rw [this]
    exact loads_begin.1 hl
  · intro d
    constructor
    · intro hd
      refine ⟨d.ident, ?_⟩
      rw [hdoc, hd1 d hd]
      rw [b.docs] at hd
      obtain ⟨e, he, rfl⟩ := List.mem_map.1 hd
      obtain ⟨i, hi, -⟩ := hmem e he
      rw [stamp_installed ht hi]
    · rintro ⟨i, hi⟩
      rw [hdoc] at hi
      by_cases hn : ∃ a ∈ args, meant E w a = .ok i
      · rw [hgone i hn] at hi; cases hi
      · have hn' : ∀ a ∈ args, meant E w a ≠ .ok i := fun a ha hm => hn ⟨a, ha, hm⟩
        rw [hsame i hn'] at hi
        exact hkeep i d hi hn'
  · rw [b.docs]; exact b.arranged
  · simp [storeReg, look_put, show graphXml ≠ namespacesTxt by decide]

/-- C35: an `uninstall` that fails for whatever reason leaves the installation directory as it was. -/
theorem uninstall_fails_directory_kept_partial (E : Env G B R) (hE : Fair E) (w w' : World G B R) (args : List Text) (e : PyErr) (hw : Good w) (h : uninstall E w args = (w', some e)) : w'.dir = w.dir := by
  rcases install'_cases h with ⟨e, -, -, rfl⟩ | ⟨fs, hf, hcase⟩
  · exact begin_dir _ _ _
  rcases hcase with ⟨e, -, -, rfl⟩ | ⟨order, hs, hcase⟩
  · exact begin_dir _ _ _
  rcases hcase with ⟨e, P, -, -, rfl⟩ | ⟨P, hp, dir, hst, rfl⟩
  · exact begin_dir _ _ _
  exfalso
  have ht : Tidy (w.begin E true).dir := hw.tidy
  obtain ⟨-, hfs⟩ := remaining_ok hE ht hf
  obtain ⟨-, ds, b⟩ := batch hs hp
  obtain ⟨dir', hok⟩ := storeDocs_total (gr := P.graphs) P.docs (if true = true then [] else w.dir : List (Text × File B R)) (by
    intro d hd
    rw [b.docs] at hd
    obtain ⟨x, hx, rfl⟩ := List.mem_map.1 hd
    obtain ⟨hm, hrd⟩ := b.mem x hx
    obtain ⟨i, d, hd, hn, hp⟩ := (hfs x.1).1 hm
    rw [hp, readDoc_installed hE ht hd] at hrd
    cases hrd
    obtain ⟨hi, -, -, ho⟩ := ht.ident hd
    refine ⟨by rw [hi]; exact ht.noSlash hd, fun hw => ?_⟩
    obtain ⟨-, fmt, c, -, hc⟩ := b.rdf x hx hw
    rw [hi, ← (ho hw).1, hc]
    rfl)
  rw [hok] at hst
  cases hst

end Osp.Install
