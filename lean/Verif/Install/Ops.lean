import Verif.Install.Props
/-!
# C34, C35: when the operations are refused, what installing and replacing do, all histories
-/
namespace Osp.Install
variable {G B R : Type}

theorem parseAll_of_loads {E : Env G B R} {w : World G B R} {g g' : G} {l : List Text} (h : Loads E w g l g') : ∀ P : Parser G B R, P.graph = g → ∃ P', parseAll E w P l = (P', none) ∧ P'.graph = g' := by
  induction h with
  | nil g => intro P hp; exact ⟨P, rfl, hp⟩
  | @yml g g1 g2 f l d hd ho hg _ ih =>
    intro P hp
    obtain ⟨P', h1, h2⟩ := ih { P with graph := g1, docs := P.docs ++ [d] } rfl
    refine ⟨P', ?_, h2⟩
    have : parse E w P f = ({ P with graph := g1, docs := P.docs ++ [d] }, none) := by
      unfold parse
      simp only [hd, ho, Bool.false_eq_true, if_false, hp, hg]
    simp only [parseAll, this, h1]
  | @rdf g g1 g2 f l d fmt c hd ho hr hdot hf hfmt hg _ ih =>
    intro P hp
    obtain ⟨P', h1, h2⟩ := ih { graph := g1, docs := P.docs ++ [d], graphs := put d.name c P.graphs } rfl
    refine ⟨P', ?_, h2⟩
    have : parse E w P f = ({ graph := g1, docs := P.docs ++ [d], graphs := put d.name c P.graphs }, none) := by
      unfold parse
      simp only [hd, ho, if_true, hdot, if_false, hr, ne_eq, not_true_eq_false, hf, hfmt, hp, hg]
    simp only [parseAll, this, h1]

theorem install'_sort_fails {E : Env G B R} {filter : World G B R → List Text → Except PyErr (List Text)} {clear : Bool} {w : World G B R} {files fs : List Text} {e : PyErr}
    (hf : filter (w.begin E clear) files = .ok fs) (hs : sortFor E (w.begin E clear) fs (if clear then [] else w.installed E) = .error e) :
    install' E filter clear w files = (w.begin E clear, some e) := by
  unfold install'
  simp only [show (if clear = true then { w with graph := E.cuba, names := E.cuba } else w) = w.begin E clear from rfl, hf, hs]

theorem install'_filter_fails {E : Env G B R} {filter : World G B R → List Text → Except PyErr (List Text)} {clear : Bool} {w : World G B R} {files : List Text} {e : PyErr}
    (hf : filter (w.begin E clear) files = .error e) : install' E filter clear w files = (w.begin E clear, some e) := by
  unfold install'
  simp only [show (if clear = true then { w with graph := E.cuba, names := E.cuba } else w) = w.begin E clear from rfl, hf]

theorem install'_stores {E : Env G B R} {filter : World G B R → List Text → Except PyErr (List Text)} {clear : Bool} {w : World G B R} {files fs order : List Text} {P : Parser G B R} {dir : List (Text × File B R)}
    (hf : filter (w.begin E clear) files = .ok fs) (hs : sortFor E (w.begin E clear) fs (if clear then [] else w.installed E) = .ok order)
    (hp : parseAll E (w.begin E clear) ⟨(w.begin E clear).graph, [], []⟩ order = (P, none)) (hst : storeDocs P.graphs (if clear then [] else w.dir) P.docs = (dir, none)) :
    install' E filter clear w files = ({ w.begin E clear with dir := storeReg E P.graph dir, graph := P.graph, names := P.graph }, none) := by
  unfold install'
  simp only [show (if clear = true then { w with graph := E.cuba, names := E.cuba } else w) = w.begin E clear from rfl, hf, hs, hp, begin_dir, hst]

/-! ### refused requests -/

theorem toRemove_unknown {E : Env G B R} {w : World G B R} {inst : List (Text × Text)} : ∀ (args : List Text), (∀ a ∈ args, ∃ i, meant E w a = .ok i) → (∃ a ∈ args, ∃ i, meant E w a = .ok i ∧ look inst i = none) →
    toRemove E w inst args = .error .valueError := by
  intro args
  induction args with
  | nil => rintro - ⟨a, ha, -⟩; cases ha
  | cons a l ih =>
    intro h hex
    obtain ⟨i, hi⟩ := h a List.mem_cons_self
    simp only [toRemove, hi]
    cases hl : look inst i with
    | none => simp
    | some p =>
      simp only [Option.isSome_some, if_true]
      rw [ih (fun b hb => h b (List.mem_cons_of_mem _ hb))]
      obtain ⟨b, hb, j, hj, hn⟩ := hex
      rcases List.mem_cons.1 hb with rfl | hb
      · rw [hi] at hj; cases hj; rw [hl] at hn; cases hn
      · exact ⟨b, hb, j, hj, hn⟩

/-- C35: a request naming a package that is not installed raises ValueError; the directory is unchanged (but see `refused_uninstall_empties_registry`). -/
theorem uninstall_unknown_raises (E : Env G B R) (hE : Fair E) (w : World G B R) (args : List Text) (hw : Good w) (hread : ∀ a ∈ args, ∃ i, meant E w a = .ok i)
    (h : ∃ a ∈ args, ∃ i, meant E w a = .ok i ∧ w.docOf i = none) : uninstall E w args = ({ w with graph := E.cuba, names := E.cuba }, some .valueError) := by
  refine install'_filter_fails (clear := true) ?_
  unfold remaining
  simp only
  rw [toRemove_unknown (w := w.begin E true) args hread]
  obtain ⟨a, ha, i, hi, hn⟩ := h
  refine ⟨a, ha, i, hi, ?_⟩
  have := look_inst hE (w := w.begin E true) hw.tidy i
  cases hl : look (toDict (E.enumP ((w.begin E true).packages E))) i with
  | none => rfl
  | some p =>
    rw [hl] at this
    obtain ⟨d, hd⟩ := this.1 rfl
    rw [begin_docOf, hn] at hd
    cases hd

/-- The documents of the packages that would be left, and how to sort them. -/
theorem kept_docs {E : Env G B R} (hE : Fair E) {w : World G B R} {args fs : List Text} (ht : Tidy w.dir) (hf : remaining E w args = .ok fs) :
    (∀ d, DocsOf E w fs d ↔ ∃ i, w.docOf i = some d ∧ ∀ a ∈ args, meant E w a ≠ .ok i) ∧ (∀ f ∈ fs, ∃ d, readDoc E w f = .ok d ∧ d.reqs ≠ .other) ∧
    (∀ d d', DocsOf E w fs d → DocsOf E w fs d' → d.ident = d'.ident → d = d') := by
  obtain ⟨-, hfs⟩ := remaining_ok hE ht hf
  have h1 : ∀ d, DocsOf E w fs d ↔ ∃ i, w.docOf i = some d ∧ ∀ a ∈ args, meant E w a ≠ .ok i := by
    intro d
    constructor
    · rintro ⟨f, hf, hd⟩
      obtain ⟨i, d', hd', hn, rfl⟩ := (hfs f).1 hf
      rw [readDoc_installed hE ht hd'] at hd
      cases hd
      exact ⟨i, hd', hn⟩
    · rintro ⟨i, hd, hn⟩
      exact ⟨_, (hfs _).2 ⟨i, d, hd, hn, rfl⟩, readDoc_installed hE ht hd⟩
  refine ⟨h1, ?_, ?_⟩
  · intro f hf
    obtain ⟨i, d, hd, -, rfl⟩ := (hfs f).1 hf
    exact ⟨d, readDoc_installed hE ht hd, (ht.ident hd).2.2.1⟩
  · intro d d' hd hd' he
    obtain ⟨i, hi, -⟩ := (h1 d).1 hd
    obtain ⟨j, hj, -⟩ := (h1 d').1 hd'
    have : i = j := by rw [← (ht.ident hi).1, ← (ht.ident hj).1, he]
    subst this
    rw [hi] at hj
    exact Option.some.inj hj

theorem remaining_total {E : Env G B R} (hE : Fair E) {w : World G B R} {args : List Text} (ht : Tidy w.dir) (h : ∀ a ∈ args, ∃ i d, meant E w a = .ok i ∧ w.docOf i = some d) : ∃ fs, remaining E w args = .ok fs := by
  obtain ⟨rs, hr⟩ := toRemove_total (E := E) (w := w) (inst := toDict (E.enumP (w.packages E))) args (fun a ha => by
    obtain ⟨i, d, hi, hd⟩ := h a ha
    exact ⟨i, hi, (look_inst hE ht i).2 ⟨d, hd⟩⟩)
  exact ⟨_, by unfold remaining; simp only [hr]; rfl⟩

/-- C35: uninstalling a package that one of the packages to be kept requires raises RuntimeError; the directory is unchanged. -/
theorem uninstall_needed_raises (E : Env G B R) (hE : Fair E) (w : World G B R) (args : List Text) (hw : Good w) (hargs : ∀ a ∈ args, ∃ i d, meant E w a = .ok i ∧ w.docOf i = some d)
    (h : ∃ i r, (∀ a ∈ args, meant E w a ≠ .ok i) ∧ w.Requires i r ∧ ∃ a ∈ args, meant E w a = .ok r) :
    uninstall E w args = ({ w with graph := E.cuba, names := E.cuba }, some .runtimeError) := by
  have ht : Tidy (w.begin E true).dir := hw.tidy
  obtain ⟨fs, hf⟩ := remaining_total hE (w := w.begin E true) ht hargs
  obtain ⟨h1, h2, h3⟩ := kept_docs hE ht hf
  refine install'_sort_fails (clear := true) hf ?_
  refine (sortFor_iff h2 h3).2 ?_
  rintro ⟨docs, hm, harr⟩
  obtain ⟨i, r, hi, ⟨d, hd, hr⟩, a, ha, har⟩ := h
  obtain ⟨b, c, hbc⟩ := List.append_of_mem ((hm d).2 ((h1 d).2 ⟨i, hd, hi⟩))
  rcases harr b d c hbc r hr with h4 | ⟨d', hd', rfl⟩
  · simp at h4
  · obtain ⟨j, hj, hn⟩ := (h1 d').1 ((hm d').1 (by rw [hbc]; exact List.mem_append_left _ hd'))
    refine hn a ha ?_
    rw [← (ht.ident hj).1]
    exact har

theorem arranged_filter {p : Doc B → Bool} : ∀ {docs : List (Doc B)}, Arranged [] docs → (∀ d ∈ docs, p d = true → ∀ r, d.Requires r → ∀ d' ∈ docs, d'.ident = r → p d' = true) → Arranged [] (docs.filter p) := by
  intro docs ha hp b d c he r hr
  obtain ⟨b', c', h1, h2, h3⟩ : ∃ b' c', docs = b' ++ d :: c' ∧ b = b'.filter p ∧ p d = true := by
    have : ∀ (docs b : List (Doc B)), docs.filter p = b ++ d :: c → ∃ b' c', docs = b' ++ d :: c' ∧ b = b'.filter p ∧ p d = true := by
      intro docs
      induction docs with
      | nil => intro b h; cases b <;> cases h
      | cons x l ih =>
        intro b h
        rw [List.filter_cons] at h
        split at h
        · rename_i hx
          cases b with
          | nil =>
            simp only [List.nil_append, List.cons.injEq] at h
            obtain ⟨rfl, h⟩ := h
            exact ⟨[], l, rfl, rfl, hx⟩
          | cons y b =>
            simp only [List.cons_append, List.cons.injEq] at h
            obtain ⟨rfl, h⟩ := h
            obtain ⟨b', c', h1, h2, h3⟩ := ih b h
            exact ⟨x :: b', c', by rw [h1]; rfl, by rw [h2, List.filter_cons, if_pos hx], h3⟩
        · rename_i hx
          obtain ⟨b', c', h1, h2, h3⟩ := ih b h
          exact ⟨x :: b', c', by rw [h1]; rfl, by rw [h2, List.filter_cons, if_neg hx], h3⟩
    exact this docs b he
  rcases ha b' d c' h1 r hr with h4 | ⟨d', hd', hi⟩
  · cases h4
  · refine Or.inr ⟨d', ?_, hi⟩
    rw [h2]
    exact List.mem_filter.2 ⟨hd', hp d (by rw [h1]; simp) h3 r hr d' (by rw [h1]; exact List.mem_append_left _ hd') hi⟩

/-- C35: uninstalling succeeds whenever all packages named are installed, none is required by a package to be kept, and the packages to be kept can be read
in every order in which each comes after its requirements. -/
theorem uninstall_succeeds (E : Env G B R) (hE : Fair E) (w : World G B R) (args : List Text) (hw : Good w) (hargs : ∀ a ∈ args, ∃ i d, meant E w a = .ok i ∧ w.docOf i = some d)
    (hneed : ∀ i r, (∀ a ∈ args, meant E w a ≠ .ok i) → w.Requires i r → ∀ a ∈ args, meant E w a ≠ .ok r)
    (hload : ∀ order docs, order.map (readDoc E w) = docs.map .ok → (∀ d, d ∈ docs ↔ ∃ i, w.docOf i = some d ∧ ∀ a ∈ args, meant E w a ≠ .ok i) → (docs.map Doc.ident).Nodup → Arranged [] docs →
      ∃ g, Loads E w E.cuba order g) : ∃ w', uninstall E w args = (w', none) := by
  have ht : Tidy (w.begin E true).dir := hw.tidy
  obtain ⟨fs, hf⟩ := remaining_total hE (w := w.begin E true) ht hargs
  obtain ⟨h1, h2, h3⟩ := kept_docs hE ht hf
  obtain ⟨-, hfs⟩ := remaining_ok hE ht hf
  obtain ⟨docs, hm, harr⟩ := hw.closed
  have hdec : ∀ i : Text, Decidable (∃ a ∈ args, meant E w a = .ok i) := fun i => inferInstance
  obtain ⟨order, hs⟩ := ((sortFor_iff (inst := []) h2 h3).1).2 ⟨docs.filter (fun d => ¬ ∃ a ∈ args, meant E w a = .ok d.ident), (by
      intro d
      rw [List.mem_filter, h1, hm]
      constructor
      · rintro ⟨⟨i, hi⟩, hn⟩
        have hid := (hw.tidy.ident hi).1
        rw [hid] at hn
        refine ⟨i, hi, fun a ha he => ?_⟩
        simp only [decide_eq_true_eq] at hn
        exact hn ⟨a, ha, he⟩
      · rintro ⟨i, hi, hn⟩
        have hid := (hw.tidy.ident hi).1
        refine ⟨⟨i, hi⟩, ?_⟩
        simp only [decide_eq_true_eq]
        rintro ⟨a, ha, he⟩
        rw [hid] at he
        exact hn a ha he), arranged_filter harr (by
      intro d hd hp r hr d' hd' he
      simp only [decide_eq_true_eq] at hp ⊢
      rintro ⟨a, ha, hm2⟩
      obtain ⟨i, hi⟩ := (hm d).1 hd
      have hid := (hw.tidy.ident hi).1
      refine hneed i r (fun b hb hbm => hp ⟨b, hb, by rw [hid]; exact hbm⟩) ⟨d, hi, hr⟩ a ha ?_
      rw [← he]; exact hm2)⟩
  obtain ⟨ds, k1, k2, k3, k4, k5⟩ := sortFor_ok hs
  obtain ⟨g, hg⟩ := hload order (ds.map (·.2)) (by
      rw [← k1, List.map_map, List.map_map]
      exact List.map_congr_left (fun e he => (k2 e he).2.1)) (by
      intro d
      constructor
      · intro hd
        obtain ⟨e, he, rfl⟩ := List.mem_map.1 hd
        exact (h1 e.2).1 ⟨e.1, (k2 e he).1, (k2 e he).2.1⟩
      · intro hd
        obtain ⟨f, hf, hrd⟩ := (h1 d).2 hd
        obtain ⟨d', hd', hi⟩ := k4 f hf
        rw [hrd] at hd'
        cases hd'
        obtain ⟨e, he, hi⟩ := List.mem_map.1 hi
        have : e.2 = d := h3 e.2 d ⟨e.1, (k2 e he).1, (k2 e he).2.1⟩ ⟨f, hf, hrd⟩ hi
        exact this ▸ List.mem_map.2 ⟨e, he, rfl⟩) (by simpa [List.map_map, Function.comp_def] using k3) k5
  obtain ⟨P, hp, -⟩ := parseAll_of_loads (loads_begin (clear := true).2 hg) ⟨(w.begin E true).graph, [], []⟩ rfl
  cases hu : uninstall E w args with
  | mk w' oe =>
    cases oe with
    | none => exact ⟨w', rfl⟩
    | some e =>
      exfalso
      rcases install'_cases hu with ⟨e', -, hf', -⟩ | ⟨fs', hf', hcase⟩
      · rw [hf] at hf'; cases hf'
      rw [hf] at hf'
      cases hf'
      rcases hcase with ⟨e', -, hs', -⟩ | ⟨order', hs', hcase⟩
      · simp only [if_true] at hs'; rw [hs] at hs'; cases hs'
      simp only [if_true] at hs'
      rw [hs] at hs'
      cases hs'
      rcases hcase with ⟨e', P', -, hp', -⟩ | ⟨P', hp', dir, hst, -⟩
      · rw [hp] at hp'; cases hp'
      rw [hp] at hp'
      cases hp'
      obtain ⟨-, ds', b⟩ := batch hs hp
      obtain ⟨dir', hok⟩ := storeDocs_total (gr := P.graphs) P.docs (if true = true then [] else w.dir : List (Text × File B R)) (by
        intro d hd
        rw [b.docs] at hd
        obtain ⟨x, hx, rfl⟩ := List.mem_map.1 hd
        obtain ⟨hm, hrd⟩ := b.mem x hx
        obtain ⟨i, d, hd, hn, hp⟩ := (hfs x.1).1 hm
        rw [hp, readDoc_installed hE ht hd] at hrd
        cases hrd
        obtain ⟨hi, -, -, ho⟩ := ht.ident hd
        refine ⟨by rw [hi]; exact ht.noSlash hd, fun hw => ?_⟩
        obtain ⟨-, fmt, c, -, hc⟩ := b.rdf x hx hw
        rw [hi, ← (ho hw).1, hc]
        rfl)
      rw [hok] at hst
      cases hst

/-! ### installing -/

/-- C34: a successful `install` installs every requested package that was not installed, each once and after its requirements, and leaves the installed ones as they are. -/
theorem install_exact (E : Env G B R) (hE : Fair E) (w w' : World G B R) (files : List Text) (hw : Good w) (h : install E w files = (w', none)) :
    (∀ f ∈ files, ∃ d, readDoc E w f = .ok d) ∧
    (∀ i d, w.docOf i = some d → w'.docOf i = some d) ∧
    (∀ i d, w'.docOf i = some d → w.docOf i = some d ∨ (w.docOf i = none ∧ ∃ f ∈ files, ∃ d', readDoc E w f = .ok d' ∧ d'.ident = i ∧ d.Same d')) ∧
    (∀ f ∈ files, ∀ d, readDoc E w f = .ok d → ∃ d', w'.docOf d.ident = some d') ∧
    (∃ order docs, Loads E w w.graph order w'.graph ∧ order.map (readDoc E w) = docs.map .ok ∧ (docs.map Doc.ident).Nodup ∧
      (∀ i, i ∈ docs.map Doc.ident ↔ w.docOf i = none ∧ ∃ f ∈ files, ∃ d, readDoc E w f = .ok d ∧ d.ident = i) ∧ Arranged (w.installed E) docs) ∧
    w'.names = w'.graph ∧ look w'.dir graphXml = some (.rdf xml (E.dump w'.graph)) := by
  rcases install'_cases h with ⟨e, ho, -⟩ | ⟨fs, hf, hcase⟩
  · cases ho
  rcases hcase with ⟨e, ho, -⟩ | ⟨order, hs, hcase⟩
  · cases ho
  rcases hcase with ⟨e, P, ho, -⟩ | ⟨P, hp, dir, hst, rfl⟩
  · cases ho
  simp only [Bool.false_eq_true, if_false] at hs hst
  have ht := hw.tidy
  obtain ⟨hall, hfs⟩ := newPackages_ok hE (w := w) hf
  obtain ⟨hl, ds, b⟩ := batch (w := w) hs hp
  have hread : Read P.graphs P.docs := b.read (fun f d hd => undotted_readDoc hE hw.tidy hw.undotted f d hd)
  obtain ⟨-, hd1, hd2⟩ := tidy_stored hread (List.Sublist.refl _) ht hst
  have hdoc : ∀ i, World.docOf ({ w.begin E false with dir := if (none : Option PyErr) = none then storeReg E P.graph dir else dir, graph := P.graph, names := P.graph } : World G B R) i = docIn dir i := by
    intro i
    rw [docOf_eq]
    exact docIn_storeReg E P.graph dir i
  have hnone : ∀ i, i ∉ w.installed E ↔ w.docOf i = none := by
    intro i
    rw [mem_installed ht]
    cases w.docOf i <;> simp
  have hmem : ∀ e ∈ ds, e.1 ∈ files ∧ readDoc E w e.1 = .ok e.2 ∧ w.docOf e.2.ident = none := by
    intro e he
    obtain ⟨hm, hrd⟩ := b.mem e he
    obtain ⟨h1, h2⟩ := (hfs e.1).1 hm
    exact ⟨h1, hrd, (hnone _).1 (h2 e.2 hrd)⟩
  have hidents : ∀ i, i ∈ P.docs.map Doc.ident ↔ w.docOf i = none ∧ ∃ f ∈ files, ∃ d, readDoc E w f = .ok d ∧ d.ident = i := by
    intro i
    rw [b.idents]
    constructor
    · intro hi
      obtain ⟨e, he, rfl⟩ := List.mem_map.1 hi
      obtain ⟨h1, h2, h3⟩ := hmem e he
      exact ⟨h3, e.1, h1, e.2, h2, rfl⟩
    · rintro ⟨hn, f, hfm, d, hd, rfl⟩
      obtain ⟨d', hd', hi⟩ := b.all f ((hfs f).2 ⟨hfm, fun d' hd' => by rw [hd] at hd'; cases hd'; exact (hnone _).2 hn⟩)
      rw [hd] at hd'
      cases hd'
      exact hi
  refine ⟨hall, ?_, ?_, ?_, ⟨order, P.docs, hl, ?_, hread.once, hidents, ?_⟩, rfl, ?_⟩
  · intro i d hd
    rw [hdoc, hd2 i]
    · exact hd
    · intro hi
      rw [((hidents i).1 hi).1] at hd
      cases hd
  · intro i d hd
    rw [hdoc] at hd
    by_cases hi : i ∈ P.docs.map Doc.ident
    · obtain ⟨x, hx, rfl⟩ := List.mem_map.1 hi
      rw [hd1 x hx] at hd
      cases hd
      rw [b.docs] at hx
      obtain ⟨e, he, rfl⟩ := List.mem_map.1 hx
      obtain ⟨h1, h2, h3⟩ := hmem e he
      exact Or.inr ⟨h3, e.1, h1, e.2, h2, rfl, stamp_same _⟩
    · rw [hd2 i hi] at hd
      exact Or.inl hd
  · intro f hfm d hd
    rw [hdoc]
    by_cases hi : d.ident ∈ P.docs.map Doc.ident
    · obtain ⟨x, hx, hx2⟩ := List.mem_map.1 hi
      exact ⟨x.stamp, by rw [← hx2]; exact hd1 x hx⟩
    · rw [hd2 _ hi]
      cases hw2 : w.docOf d.ident with
      | none => exact absurd ((hidents _).2 ⟨hw2, f, hfm, d, hd, rfl⟩) hi
      | some x => exact ⟨x, hw2⟩
  · rw [← b.order, b.docs, List.map_map, List.map_map]
    exact List.map_congr_left (fun e he => (b.mem e he).2)
  · rw [b.docs]; exact b.arranged
  · simp [storeReg, look_put, show graphXml ≠ namespacesTxt by decide]

/-- C34: if the new packages cannot be arranged so that each comes after its requirements, `install` raises RuntimeError and changes nothing. -/
theorem install_without_order_raises (E : Env G B R) (hE : Fair E) (w : World G B R) (files fs : List Text) (hf : newPackages E w files = .ok fs) (hlist : ∀ f ∈ files, ∀ d, readDoc E w f = .ok d → d.reqs ≠ .other)
    (hone : ∀ d d', DocsOf E w fs d → DocsOf E w fs d' → d.ident = d'.ident → d = d')
    (h : ¬ ∃ docs : List (Doc B), (∀ d, d ∈ docs ↔ DocsOf E w fs d) ∧ Arranged (w.installed E) docs) : install E w files = (w, some .runtimeError) := by
  obtain ⟨hall, hfs⟩ := newPackages_ok hE hf
  refine install'_sort_fails (clear := false) (w := w) hf ?_
  refine (sortFor_iff (w := w) ?_ hone).2 h
  intro f hf
  obtain ⟨d, hd⟩ := hall f ((hfs f).1 hf).1
  exact ⟨d, hd, hlist f ((hfs f).1 hf).1 d hd⟩

/-- C34: if they can be arranged, `install` gets past the ordering: it succeeds whenever they can be read in every such order and can be written. -/
theorem install_with_order_succeeds (E : Env G B R) (hE : Fair E) (w : World G B R) (files fs : List Text) (hf : newPackages E w files = .ok fs) (hlist : ∀ f ∈ files, ∀ d, readDoc E w f = .ok d → d.reqs ≠ .other)
    (hone : ∀ d d', DocsOf E w fs d → DocsOf E w fs d' → d.ident = d'.ident → d = d')
    (h : ∃ docs : List (Doc B), (∀ d, d ∈ docs ↔ DocsOf E w fs d) ∧ Arranged (w.installed E) docs)
    (hload : ∀ order docs, order.map (readDoc E w) = docs.map .ok → (∀ d, d ∈ docs ↔ DocsOf E w fs d) → (docs.map Doc.ident).Nodup → Arranged (w.installed E) docs → ∃ g, Loads E w w.graph order g)
    (hwrite : ∀ d, DocsOf E w fs d → '/' ∉ d.ident ∧ (d.owl = true → d.name = d.ident)) : ∃ w', install E w files = (w', none) := by
  obtain ⟨hall, hfs⟩ := newPackages_ok hE hf
  obtain ⟨order, hs⟩ := ((sortFor_iff (w := w) (fs := fs) (inst := w.installed E) (by
    intro f hf
    obtain ⟨d, hd⟩ := hall f ((hfs f).1 hf).1
    exact ⟨d, hd, hlist f ((hfs f).1 hf).1 d hd⟩) hone).1).2 h
  obtain ⟨ds, k1, k2, k3, k4, k5⟩ := sortFor_ok hs
  obtain ⟨g, hg⟩ := hload order (ds.map (·.2)) (by
      rw [← k1, List.map_map, List.map_map]
      exact List.map_congr_left (fun e he => (k2 e he).2.1)) (by
      intro d
      constructor
      · intro hd
        obtain ⟨e, he, rfl⟩ := List.mem_map.1 hd
        exact ⟨e.1, (k2 e he).1, (k2 e he).2.1⟩
      · rintro ⟨f, hf, hrd⟩
        obtain ⟨d', hd', hi⟩ := k4 f hf
        rw [hrd] at hd'
        cases hd'
        obtain ⟨e, he, hi⟩ := List.mem_map.1 hi
        have : e.2 = d := hone e.2 d ⟨e.1, (k2 e he).1, (k2 e he).2.1⟩ ⟨f, hf, hrd⟩ hi
        exact this ▸ List.mem_map.2 ⟨e, he, rfl⟩) (by simpa [List.map_map, Function.comp_def] using k3) k5
  obtain ⟨P, hp, -⟩ := parseAll_of_loads hg ⟨w.graph, [], []⟩ rfl
  obtain ⟨-, ds', b⟩ := batch hs hp
  obtain ⟨dir, hst⟩ := storeDocs_total (gr := P.graphs) P.docs w.dir (by
    intro d hd
    rw [b.docs] at hd
    obtain ⟨x, hx, rfl⟩ := List.mem_map.1 hd
    obtain ⟨h1, h2⟩ := hwrite x.2 ⟨x.1, b.mem x hx⟩
    refine ⟨h1, fun ho => ?_⟩
    obtain ⟨-, fmt, c, -, hc⟩ := b.rdf x hx ho
    rw [← h2 ho, hc]
    rfl)
  exact ⟨_, install'_stores (clear := false) (w := w) hf hs hp hst⟩

/-- A failing `install` leaves the directory as it was, unless a package was refused only when its files were written: an RDF package whose identifier has capital letters, or a
name with a slash. -/
theorem install_fails_directory_kept (E : Env G B R) (hE : Fair E) (w w' : World G B R) (files : List Text) (e : PyErr) (h : install E w files = (w', some e)) :
    w'.dir = w.dir ∨ ∃ f ∈ files, ∃ d, readDoc E w f = .ok d ∧ ((d.owl = true ∧ d.name ≠ d.ident) ∨ '/' ∈ d.ident) := by
  rcases install'_cases h with ⟨e, -, -, rfl⟩ | ⟨fs, hf, hcase⟩
  · exact Or.inl rfl
  rcases hcase with ⟨e, -, -, rfl⟩ | ⟨order, hs, hcase⟩
  · exact Or.inl rfl
  rcases hcase with ⟨e, P, -, -, rfl⟩ | ⟨P, hp, dir, hst, rfl⟩
  · exact Or.inl rfl
  right
  obtain ⟨hall, hfs⟩ := newPackages_ok hE (w := w) hf
  obtain ⟨-, ds, b⟩ := batch (w := w) hs hp
  obtain ⟨pre, d, post, h1, -, h2⟩ := storeDocs_prefix _ _ _ _ hst
  have hd : d ∈ P.docs := by rw [h1]; simp
  rw [b.docs] at hd
  obtain ⟨x, hx, rfl⟩ := List.mem_map.1 hd
  refine ⟨x.1, ((hfs x.1).1 (b.mem x hx).1).1, x.2, (b.mem x hx).2, ?_⟩
  by_cases hsl : '/' ∈ x.2.ident
  · exact Or.inr hsl
  · left
    unfold storeDoc at h2
    simp only [hsl, if_false] at h2
    cases ho : x.2.owl with
    | false => simp only [ho, Bool.false_eq_true, if_false, Prod.mk.injEq] at h2; exact absurd h2.2 (by simp)
    | true =>
      refine ⟨rfl, fun hn => ?_⟩
      obtain ⟨-, fmt, c, -, hc⟩ := b.rdf x hx ho
      rw [hn] at hc
      simp only [ho, if_true, hc, Prod.mk.injEq] at h2
      exact absurd h2.2 (by simp)

/-! ### replacing -/

/-- C34: a successful `install_overwrite` replaces the requested packages and keeps all others as they are. -/
theorem overwrite_exact (E : Env G B R) (hE : Fair E) (w w' : World G B R) (files : List Text) (hw : Good w) (h : overwrite E w files = (w', none)) :
    (∀ f ∈ files, ∃ d, readDoc E w f = .ok d) ∧
    (∀ i, (∀ f ∈ files, getIdentifier E w f ≠ .ok i) → w'.docOf i = w.docOf i) ∧
    (∀ i, (∃ f ∈ files, getIdentifier E w f = .ok i) → ∃ d, w'.docOf i = some d ∧ ∃ f ∈ files, ∃ d', readDoc E w f = .ok d' ∧ d'.ident = i ∧ d.Same d') ∧
    (∃ order docs, Loads E w E.cuba order w'.graph ∧ order.map (readDoc E w) = docs.map .ok ∧ (docs.map Doc.ident).Nodup ∧ (∀ i, i ∈ docs.map Doc.ident ↔ ∃ d, w'.docOf i = some d) ∧ Arranged [] docs) ∧
    w'.names = w'.graph ∧ look w'.dir graphXml = some (.rdf xml (E.dump w'.graph)) := by
  rcases install'_cases h with ⟨e, ho, -⟩ | ⟨fs, hf, hcase⟩
  · cases ho
  rcases hcase with ⟨e, ho, -⟩ | ⟨order, hs, hcase⟩
  · cases ho
  rcases hcase with ⟨e, P, ho, -⟩ | ⟨P, hp, dir, hst, rfl⟩
  · cases ho
  simp only [if_true] at hs hst
  have ht : Tidy (w.begin E true).dir := hw.tidy
  obtain ⟨hall, hfs, hcov⟩ := replaced_ok hE ht hf
  obtain ⟨hl, ds, b⟩ := batch hs hp
  have hread : Read P.graphs P.docs := b.read (fun f d hd => undotted_readDoc hE hw.tidy hw.undotted f d hd)
  obtain ⟨-, hd1, hd2⟩ := tidy_stored hread (List.Sublist.refl _) tidy_nil hst
  have hdoc : ∀ i, World.docOf ({ w.begin E true with dir := if (none : Option PyErr) = none then storeReg E P.graph dir else dir, graph := P.graph, names := P.graph } : World G B R) i = docIn dir i := by
    intro i
    rw [docOf_eq]
    exact docIn_storeReg E P.graph dir i
  have hmem : ∀ e ∈ ds, (e.1 ∈ files ∧ readDoc E w e.1 = .ok e.2) ∨ (w.docOf e.2.ident = some e.2 ∧ ∀ f ∈ files, getIdentifier E w f ≠ .ok e.2.ident) := by
    intro e he
    obtain ⟨hm, hrd⟩ := b.mem e he
    rcases hfs e.1 hm with h1 | ⟨i, d, hd, hno, hpath⟩
    · exact Or.inl ⟨h1, hrd⟩
    · rw [hpath, readDoc_installed hE ht hd] at hrd
      cases hrd
      rw [(ht.ident hd).1]
      exact Or.inr ⟨hd, hno⟩
  have hin : ∀ i, (∃ d, w.docOf i = some d) ∨ (∃ f ∈ files, getIdentifier E w f = .ok i) → ∃ e ∈ ds, e.2.ident = i := by
    intro i hi
    obtain ⟨p, hp, hg⟩ := hcov i hi
    obtain ⟨d, hd, hid⟩ := getIdentifier_ok.1 hg
    obtain ⟨d', hd', hm⟩ := b.all p hp
    rw [hd] at hd'
    cases hd'
    rw [hid] at hm
    obtain ⟨e, he, hei⟩ := List.mem_map.1 hm
    exact ⟨e, he, hei⟩
  refine ⟨hall, ?_, ?_, ⟨order, P.docs, loads_begin.1 hl, ?_, hread.once, ?_, ?_⟩, rfl, ?_⟩
  · intro i hno
    rw [hdoc]
    cases hd : w.docOf i with
    | some d =>
      obtain ⟨e, he, hi⟩ := hin i (Or.inl ⟨d, hd⟩)
      rcases hmem e he with ⟨h1, h2⟩ | ⟨h1, -⟩
      · exact absurd (getIdentifier_ok.2 ⟨e.2, h2, hi⟩) (hno e.1 h1)
      · rw [hi, hd] at h1
        cases h1
        have := hd1 e.2 (by rw [b.docs]; exact List.mem_map.2 ⟨e, he, rfl⟩)
        rw [hi, stamp_installed ht hd] at this
        exact this
    | none =>
      rw [hd2 i]
      · rfl
      · rw [b.idents]
        intro hi
        obtain ⟨e, he, hid⟩ := List.mem_map.1 hi
        rcases hmem e he with ⟨h1, h2⟩ | ⟨h1, -⟩
        · exact hno e.1 h1 (getIdentifier_ok.2 ⟨e.2, h2, hid⟩)
        · have h1' : w.docOf i = some e.2 := by rw [← hid]; exact h1
          rw [hd] at h1'
          cases h1'
  · intro i hex
    obtain ⟨e, he, hi⟩ := hin i (Or.inr hex)
    refine ⟨e.2.stamp, ?_, ?_⟩
    · rw [hdoc, ← hi]
      exact hd1 e.2 (by rw [b.docs]; exact List.mem_map.2 ⟨e, he, rfl⟩)
    · rcases hmem e he with ⟨h1, h2⟩ | ⟨-, h2⟩
      · exact ⟨e.1, h1, e.2, h2, hi, stamp_same _⟩
      · obtain ⟨f, hf, hg⟩ := hex
        exact absurd (by rw [hi]; exact hg) (h2 f hf)
  · rw [← b.order, b.docs, List.map_map, List.map_map]
    exact List.map_congr_left (fun e he => (b.mem e he).2)
  · intro i
    rw [hdoc]
    constructor
    · intro hi
      obtain ⟨x, hx, rfl⟩ := List.mem_map.1 hi
      exact ⟨_, hd1 x hx⟩
    · rintro ⟨d, hd⟩
      apply Decidable.byContradiction
      intro hi
      rw [hd2 i hi] at hd
      cases hd
  · rw [b.docs]; exact b.arranged
  · simp [storeReg, look_put, show graphXml ≠ namespacesTxt by decide]

/-- A failing `install_overwrite` leaves the directory as it was, unless one of the requested packages was refused only when its files were written. -/
theorem overwrite_fails_directory_kept (E : Env G B R) (hE : Fair E) (w w' : World G B R) (files : List Text) (e : PyErr) (hw : Good w) (h : overwrite E w files = (w', some e)) :
    w'.dir = w.dir ∨ ∃ f ∈ files, ∃ d, readDoc E w f = .ok d ∧ ((d.owl = true ∧ d.name ≠ d.ident) ∨ '/' ∈ d.ident) := by
  rcases install'_cases h with ⟨e, -, -, rfl⟩ | ⟨fs, hf, hcase⟩
  · exact Or.inl rfl
  rcases hcase with ⟨e, -, -, rfl⟩ | ⟨order, hs, hcase⟩
  · exact Or.inl rfl
  rcases hcase with ⟨e, P, -, -, rfl⟩ | ⟨P, hp, dir, hst, rfl⟩
  · exact Or.inl rfl
  right
  have ht : Tidy (w.begin E true).dir := hw.tidy
  obtain ⟨-, hfs, -⟩ := replaced_ok hE ht hf
  obtain ⟨-, ds, b⟩ := batch hs hp
  obtain ⟨pre, d, post, h1, -, h2⟩ := storeDocs_prefix _ _ _ _ hst
  have hd : d ∈ P.docs := by rw [h1]; simp
  rw [b.docs] at hd
  obtain ⟨x, hx, rfl⟩ := List.mem_map.1 hd
  have hbad : (x.2.owl = true ∧ x.2.name ≠ x.2.ident) ∨ '/' ∈ x.2.ident := by
    by_cases hsl : '/' ∈ x.2.ident
    · exact Or.inr hsl
    · left
      unfold storeDoc at h2
      simp only [hsl, if_false] at h2
      cases ho : x.2.owl with
      | false => simp only [ho, Bool.false_eq_true, if_false, Prod.mk.injEq] at h2; exact absurd h2.2 (by simp)
      | true =>
        refine ⟨rfl, fun hn => ?_⟩
        obtain ⟨-, fmt, c, -, hc⟩ := b.rdf x hx ho
        rw [hn] at hc
        simp only [ho, if_true, hc, Prod.mk.injEq] at h2
        exact absurd h2.2 (by simp)
  obtain ⟨hm, hrd⟩ := b.mem x hx
  rcases hfs x.1 hm with h3 | ⟨i, d, hd, -, hpath⟩
  · exact ⟨x.1, h3, x.2, hrd, hbad⟩
  · exfalso
    rw [hpath, readDoc_installed hE ht hd] at hrd
    cases hrd
    obtain ⟨hi, -, -, ho⟩ := ht.ident hd
    rcases hbad with ⟨h4, h5⟩ | h4
    · exact h5 (by rw [(ho h4).1, hi])
    · rw [hi] at h4; exact ht.noSlash hd h4

/-- After a successful request the next start of Python finds the registry as it is. -/
theorem restart_same (E : Env G B R) (empty : G) (hload : ∀ g, E.load (E.dump g) = g) (w w' : World G B R) (args : List Text) (r : World G B R × Option PyErr)
    (hr : r = install E w args ∨ r = overwrite E w args ∨ r = uninstall E w args) (h : r = (w', none)) : (restart E empty w').graph = w'.graph ∧ (restart E empty w').names = w'.names := by
  have key : ∃ dir, w'.dir = storeReg E w'.graph dir ∧ w'.names = w'.graph := by
    have : ∀ {filter : World G B R → List Text → Except PyErr (List Text)} {clear : Bool}, install' E filter clear w args = (w', none) → ∃ dir, w'.dir = storeReg E w'.graph dir ∧ w'.names = w'.graph := by
      intro filter clear h
      rcases install'_cases h with ⟨e, ho, -⟩ | ⟨fs, hf, hcase⟩
      · cases ho
      rcases hcase with ⟨e, ho, -⟩ | ⟨order, hs, hcase⟩
      · cases ho
      rcases hcase with ⟨e, P, ho, -⟩ | ⟨P, hp, dir, hst, rfl⟩
      · cases ho
      exact ⟨dir, rfl, rfl⟩
    rcases hr with hr | hr | hr <;> exact this (hr.symm.trans h)
  obtain ⟨dir, h1, h2⟩ := key
  have h3 : look w'.dir graphXml = some (.rdf xml (E.dump w'.graph)) := by
    rw [h1]; simp [storeReg, look_put, show graphXml ≠ namespacesTxt by decide]
  have h4 : (look w'.dir namespacesTxt).isSome := by
    rw [h1]; simp [storeReg, look_put]
  unfold restart
  rw [h3]
  simp only [h4, if_true, hload, h2, and_self]

/-! ### all histories -/

/-- The requests to the installation manager. -/
inductive Request where
  | install (files : List Text)
  | overwrite (files : List Text)
  | uninstall (args : List Text)

/-- One request, whatever its outcome. -/
def perform (E : Env G B R) (w : World G B R) : Request → World G B R
  | .install fs => (install E w fs).1
  | .overwrite fs => (overwrite E w fs).1
  | .uninstall as => (uninstall E w as).1

theorem good_install' {E : Env G B R} (hE : Fair E) {filter : World G B R → List Text → Except PyErr (List Text)} {clear : Bool} {w w' : World G B R} {files : List Text} {o : Option PyErr}
    (hw : Good w) (hnew : clear = false → ∀ fs, filter w files = .ok fs → ∀ f ∈ fs, ∀ d, readDoc E w f = .ok d → w.docOf d.ident = none)
    (h : install' E filter clear w files = (w', o)) : Good w' := by
  have hb : Good (w.begin E clear) := by cases clear <;> exact ⟨hw.tidy, hw.closed, hw.undotted⟩
  rcases install'_cases h with ⟨e, -, -, rfl⟩ | ⟨fs, hf, hcase⟩
  · exact hb
  rcases hcase with ⟨e, -, -, rfl⟩ | ⟨order, hs, hcase⟩
  · exact hb
  rcases hcase with ⟨e, P, -, -, rfl⟩ | ⟨P, hp, dir, hst, rfl⟩
  · exact ⟨hb.tidy, hb.closed, hb.undotted⟩
  obtain ⟨-, ds, b⟩ := batch hs hp
  have hread : Read P.graphs P.docs := b.read (fun f d hd => undotted_readDoc hE hb.tidy hb.undotted f d hd)
  -- the directory into which the documents are written
  have hbase : Tidy (if clear then [] else w.dir : List (Text × File B R)) ∧ Closed (if clear then [] else w.dir : List (Text × File B R)) := by
    cases clear
    · exact ⟨hw.tidy, hw.closed⟩
    · exact ⟨tidy_nil, closed_nil⟩
  have hinst : ∀ r ∈ (if clear then [] else w.installed E : List Text), ∃ d, docIn (if clear then [] else w.dir : List (Text × File B R)) r = some d := by
    cases clear
    · intro r hr
      exact (mem_installed hw.tidy).1 hr
    · intro r hr; cases hr
  have hfresh : ∀ d ∈ P.docs, docIn (if clear then [] else w.dir : List (Text × File B R)) d.ident = none := by
    cases clear
    · intro d hd
      rw [b.docs] at hd
      obtain ⟨e, he, rfl⟩ := List.mem_map.1 hd
      exact hnew rfl fs hf e.1 (b.mem e he).1 e.2 (b.mem e he).2
    · intro d _; rfl
  have harr : Arranged (if clear then [] else w.installed E : List Text) P.docs := by rw [b.docs]; exact b.arranged
  cases o with
  | none =>
    obtain ⟨h1, -, -⟩ := tidy_stored hread (List.Sublist.refl _) hbase.1 hst
    have h2 := closed_stored hread (List.Sublist.refl _) hbase.1 hst hbase.2 harr hinst hfresh
    exact ⟨tidy_storeReg E _ h1, closed_storeReg E _ h2, hb.undotted⟩
  | some e =>
    obtain ⟨pre, d, post, q1, q2, -⟩ := storeDocs_prefix _ _ _ _ hst
    have hsub : pre.Sublist P.docs := by rw [q1]; exact List.sublist_append_left _ _
    obtain ⟨h1, -, -⟩ := tidy_stored hread hsub hbase.1 q2
    have h2 := closed_stored hread hsub hbase.1 q2 hbase.2 (by rw [q1] at harr; exact arranged_prefix harr) hinst (fun d hd => hfresh d (hsub.subset hd))
    exact ⟨h1, h2, hb.undotted⟩

/-- C34: over every history of requests, successful or not, the installed packages can be arranged so that each comes after its requirements: no package is ever installed
without its requirements. -/
theorem good_history (E : Env G B R) (hE : Fair E) (w : World G B R) (hw : Good w) : ∀ rs : List Request, Good (rs.foldl (perform E) w) := by
  intro rs
  induction rs generalizing w with
  | nil => exact hw
  | cons r rs ih =>
    refine ih _ ?_
    cases r with
    | install fs =>
      cases h : install E w fs with
      | mk w' o =>
        have : Good w' := good_install' hE hw (fun _ fs' hf f hfm d hd => by
          obtain ⟨-, h2⟩ := newPackages_ok hE hf
          have := ((h2 f).1 hfm).2 d hd
          cases hx : w.docOf d.ident with
          | none => rfl
          | some x => exact absurd ((mem_installed hw.tidy).2 ⟨x, hx⟩) this) h
        simpa [perform, h] using this
    | overwrite fs =>
      cases h : overwrite E w fs with
      | mk w' o =>
        have : Good w' := good_install' hE hw (fun hc => by cases hc) h
        simpa [perform, h] using this
    | uninstall as =>
      cases h : uninstall E w as with
      | mk w' o =>
        have : Good w' := good_install' hE hw (fun hc => by cases hc) h
        simpa [perform, h] using this

/-- What the invariant means for a user: every requirement of an installed package is installed. -/
theorem requirements_installed (E : Env G B R) (hE : Fair E) (w : World G B R) (hw : Good w) (rs : List Request) (i r : Text) (h : (rs.foldl (perform E) w).Requires i r) :
    r ∈ (rs.foldl (perform E) w).installed E := by
  have hg := good_history E hE w hw rs
  generalize rs.foldl (perform E) w = v at *
  obtain ⟨d, hd, hr⟩ := h
  obtain ⟨docs, hm, ha⟩ := hg.closed
  obtain ⟨b, c, hbc⟩ := List.append_of_mem ((hm d).2 ⟨i, hd⟩)
  rcases ha b d c hbc r hr with h1 | ⟨d', hd', rfl⟩
  · cases h1
  · obtain ⟨j, hj⟩ := (hm d').1 (by rw [hbc]; exact List.mem_append_left _ hd')
    rw [mem_installed hg.tidy]
    exact ⟨d', by rw [(hg.tidy.ident hj).1]; exact hj⟩

end Osp.Install
