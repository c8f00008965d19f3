import Verif.Install.Tidy
/-!
# The whole installation: sorting, reading, writing
-/
namespace Osp.Install
variable {G B R : Type}

/-- The world in which `_install` works: with `clear` the registry is reduced to CUBA first. -/
def World.begin (E : Env G B R) (clear : Bool) (w : World G B R) : World G B R := if clear then { w with graph := E.cuba, names := E.cuba } else w

theorem begin_dir (E : Env G B R) (clear : Bool) (w : World G B R) : (w.begin E clear).dir = w.dir := by cases clear <;> rfl
theorem begin_ext (E : Env G B R) (clear : Bool) (w : World G B R) : (w.begin E clear).ext = w.ext := by cases clear <;> rfl
theorem begin_readDoc (E : Env G B R) (clear : Bool) (w : World G B R) (f : Text) : readDoc E (w.begin E clear) f = readDoc E w f := by cases clear <;> rfl
theorem begin_docOf (E : Env G B R) (clear : Bool) (w : World G B R) (i : Text) : (w.begin E clear).docOf i = w.docOf i := by cases clear <;> rfl
theorem begin_installed (E : Env G B R) (clear : Bool) (w : World G B R) : (w.begin E clear).installed E = w.installed E := by cases clear <;> rfl

theorem loads_begin {E : Env G B R} {clear : Bool} {w : World G B R} {g g' : G} {l : List Text} : Loads E (w.begin E clear) g l g' ↔ Loads E w g l g' := by
  have hr : ∀ t, (w.begin E clear).read E t = w.read E t := fun t => by cases clear <;> rfl
  have hp : ∀ t, filePath E (w.begin E clear) t = filePath E w t := fun t => by cases clear <;> rfl
  constructor
  · intro h
    induction h with
    | nil => exact .nil _
    | yml hd ho hg _ ih => exact .yml (by rw [← hd]; exact (begin_readDoc _ _ _ _).symm) ho hg ih
    | rdf hd ho hr' hdot hf hfmt hg _ ih => exact .rdf (by rw [← hd]; exact (begin_readDoc _ _ _ _).symm) ho hr' hdot (by rw [← hf, hr, hp]) hfmt hg ih
  · intro h
    induction h with
    | nil => exact .nil _
    | yml hd ho hg _ ih => exact .yml (by rw [← hd]; exact begin_readDoc _ _ _ _) ho hg ih
    | rdf hd ho hr' hdot hf hfmt hg _ ih => exact .rdf (by rw [← hd]; exact begin_readDoc _ _ _ _) ho hr' hdot (by rw [← hf, hr, hp]) hfmt hg ih

/-- The cases of `_install`. -/
theorem install'_cases {E : Env G B R} {filter : World G B R → List Text → Except PyErr (List Text)} {clear : Bool} {w w' : World G B R} {files : List Text} {o : Option PyErr}
    (h : install' E filter clear w files = (w', o)) :
    (∃ e, o = some e ∧ filter (w.begin E clear) files = .error e ∧ w' = w.begin E clear) ∨
    ∃ fs, filter (w.begin E clear) files = .ok fs ∧
      ((∃ e, o = some e ∧ sortFor E (w.begin E clear) fs (if clear then [] else w.installed E) = .error e ∧ w' = w.begin E clear) ∨
       ∃ order, sortFor E (w.begin E clear) fs (if clear then [] else w.installed E) = .ok order ∧
        ((∃ e P, o = some e ∧ parseAll E (w.begin E clear) ⟨(w.begin E clear).graph, [], []⟩ order = (P, some e) ∧ w' = { w.begin E clear with graph := P.graph }) ∨
         ∃ P, parseAll E (w.begin E clear) ⟨(w.begin E clear).graph, [], []⟩ order = (P, none) ∧
          ∃ dir, (storeDocs P.graphs (if clear then [] else w.dir) P.docs = (dir, o)) ∧
            w' = { w.begin E clear with dir := if o = none then storeReg E P.graph dir else dir, graph := P.graph, names := P.graph })) := by
  unfold install' at h
  simp only at h
  have hb : (if clear = true then { w with graph := E.cuba, names := E.cuba } else w) = w.begin E clear := rfl
  rw [hb] at h
  cases hf : filter (w.begin E clear) files with
  | error e =>
    rw [hf] at h
    cases h
    exact Or.inl ⟨e, rfl, rfl, rfl⟩
  | ok fs =>
    rw [hf] at h
    simp only at h
    refine Or.inr ⟨fs, rfl, ?_⟩
    cases hs : sortFor E (w.begin E clear) fs (if clear then [] else w.installed E) with
    | error e =>
      rw [hs] at h
      cases h
      exact Or.inl ⟨e, rfl, rfl, rfl⟩
    | ok order =>
      rw [hs] at h
      simp only at h
      refine Or.inr ⟨order, rfl, ?_⟩
      cases hp : parseAll E (w.begin E clear) ⟨(w.begin E clear).graph, [], []⟩ order with
      | mk P oe =>
        rw [hp] at h
        cases oe with
        | some e =>
          cases h
          exact Or.inl ⟨e, P, rfl, rfl, rfl⟩
        | none =>
          simp only at h
          refine Or.inr ⟨P, rfl, ?_⟩
          rw [begin_dir] at h
          cases hq : storeDocs P.graphs (if clear then [] else w.dir) P.docs with
          | mk dir oe =>
            rw [hq] at h
            cases oe with
            | some e => cases h; exact ⟨dir, rfl, rfl⟩
            | none => cases h; exact ⟨dir, rfl, rfl⟩

/-- What sorting and reading give. -/
structure Batch (E : Env G B R) (w : World G B R) (fs inst order : List Text) (P : Parser G B R) (ds : List (Text × Doc B)) : Prop where
  order : ds.map (·.1) = order
  docs : P.docs = ds.map (·.2)
  mem : ∀ e ∈ ds, e.1 ∈ fs ∧ readDoc E w e.1 = .ok e.2
  listed : ∀ e ∈ ds, e.2.reqs ≠ .other
  once : (ds.map (·.2.ident)).Nodup
  all : ∀ f ∈ fs, ∃ d, readDoc E w f = .ok d ∧ d.ident ∈ ds.map (·.2.ident)
  arranged : Arranged inst (ds.map (·.2))
  rdf : ∀ e ∈ ds, e.2.owl = true → e.2.reqs = .absent ∧ ∃ fmt c, w.read E (rdfPath (filePath E w e.1) e.2) = some (.rdf fmt c) ∧ look P.graphs e.2.name = some c
  known : ∀ k c, look P.graphs k = some c → ∃ d ∈ P.docs, d.owl = true ∧ d.name = k

theorem batch {E : Env G B R} {w : World G B R} {fs inst order : List Text} {g : G} {P : Parser G B R} (hs : sortFor E w fs inst = .ok order) (hp : parseAll E w ⟨g, [], []⟩ order = (P, none)) :
    Loads E w g order P.graph ∧ ∃ ds, Batch E w fs inst order P ds := by
  obtain ⟨ds, h1, h2, h3, h4, h5⟩ := sortFor_ok hs
  obtain ⟨hl, ds', k1, k2, k3, k4, k5⟩ := parseAll_ok order _ _ hp
  have heq : ds' = ds := by
    have : ∀ (a b : List (Text × Doc B)), a.map (·.1) = b.map (·.1) → (∀ e ∈ a, readDoc E w e.1 = .ok e.2) → (∀ e ∈ b, readDoc E w e.1 = .ok e.2) → a = b := by
      intro a
      induction a with
      | nil => intro b hb _ _; cases b with
        | nil => rfl
        | cons x l => cases hb
      | cons x l ih =>
        intro b hb ha hb2
        cases b with
        | nil => cases hb
        | cons y m =>
          simp only [List.map_cons, List.cons.injEq] at hb
          have hx := ha x List.mem_cons_self
          have hy := hb2 y List.mem_cons_self
          rw [hb.1, hy] at hx
          have : x = y := Prod.ext hb.1 (Except.ok.inj hx).symm
          rw [this, ih m hb.2 (fun e he => ha e (List.mem_cons_of_mem _ he)) (fun e he => hb2 e (List.mem_cons_of_mem _ he))]
    exact this ds' ds (by rw [k1, h1]) k3 (fun e he => (h2 e he).2.1)
  subst heq
  have hdocs : P.docs = ds'.map (·.2) := by simpa using k2
  have hnames : (ds'.map (·.2.name)).Nodup := by
    have := ident_name_nodup (ds := ds'.map (·.2)) (by simpa [List.map_map, Function.comp_def] using h3)
    simpa [List.map_map, Function.comp_def] using this
  obtain ⟨k6, k7⟩ := k5 hnames
  refine ⟨hl, ds', h1, hdocs, fun e he => ⟨(h2 e he).1, (h2 e he).2.1⟩, fun e he => (h2 e he).2.2, h3, h4, h5, fun e he ho => ⟨(k4 e he ho).1, k6 e he ho⟩, ?_⟩
  intro k c hk
  apply Decidable.byContradiction
  intro hno
  have : look P.graphs k = look ([] : List (Text × R)) k := k7 k (fun e he ho hn => hno ⟨e.2, by rw [hdocs]; exact List.mem_map.2 ⟨e, he, rfl⟩, ho, hn⟩)
  rw [this] at hk
  cases hk

theorem Batch.idents {E : Env G B R} {w : World G B R} {fs inst order : List Text} {P : Parser G B R} {ds : List (Text × Doc B)} (b : Batch E w fs inst order P ds) : P.docs.map Doc.ident = ds.map (·.2.ident) := by
  rw [b.docs]; simp [List.map_map, Function.comp_def]

theorem Batch.read {E : Env G B R} {w : World G B R} {fs inst order : List Text} {P : Parser G B R} {ds : List (Text × Doc B)} (b : Batch E w fs inst order P ds)
    (hdots : ∀ f d, readDoc E w f = .ok d → '.' ∉ d.ident) : Read P.graphs P.docs := by
  refine ⟨by rw [b.idents]; exact b.once, ?_, ?_, ?_, b.known⟩
  · intro d hd
    rw [b.docs] at hd
    obtain ⟨e, he, rfl⟩ := List.mem_map.1 hd
    exact hdots e.1 e.2 (b.mem e he).2
  · intro d hd ho
    rw [b.docs] at hd
    obtain ⟨e, he, rfl⟩ := List.mem_map.1 hd
    exact (b.rdf e he ho).1
  · intro d hd
    rw [b.docs] at hd
    obtain ⟨e, he, rfl⟩ := List.mem_map.1 hd
    exact b.listed e he

/-! ### the invariant of all histories -/

/-- The packages outside the installation directory have identifiers without dots. -/
def Undotted (w : World G B R) : Prop := ∀ t d, w.ext t = some (.pkg d) → '.' ∉ d.ident

/-- The installed packages can be arranged so that each comes after its requirements. -/
def Closed (dir : List (Text × File B R)) : Prop := ∃ docs, (∀ d, d ∈ docs ↔ ∃ i, docIn dir i = some d) ∧ Arranged [] docs

theorem filePath_ends (E : Env G B R) (w : World G B R) (t : Text) : endsWith (filePath E w t) dotYml = true := by
  unfold filePath
  split
  · assumption
  · simp only
    split
    · have : Osp.Names.lower t ++ ".ontology.yml".toList = (Osp.Names.lower t ++ ".ontology".toList) ++ dotYml := by simp [dotYml]
      rw [this]; exact join_yml _ _
    · exact join_yml _ _

theorem undotted_readDoc {E : Env G B R} (hE : Fair E) {w : World G B R} (ht : Tidy w.dir) (hu : Undotted w) (f : Text) (d : Doc B) (h : readDoc E w f = .ok d) : '.' ∉ d.ident := by
  have hread : w.read E (filePath E w f) = some (.pkg d) := by
    unfold readDoc at h
    cases hr : w.read E (filePath E w f) with
    | none => rw [hr] at h; cases h
    | some x =>
      rw [hr] at h
      cases x <;> first | (cases h; done) | skip
      cases h; rfl
  unfold World.read at hread
  cases hf : w.dir.find? (fun e => join E.path e.1 = filePath E w f) with
  | none => rw [hf] at hread; exact hu _ _ hread
  | some e =>
    rw [hf] at hread
    simp only [Option.some.injEq] at hread
    have he := List.mem_of_find?_eq_some hf
    have hj : join E.path e.1 = filePath E w f := by simpa using List.find?_some hf
    have hsl := ht.slash e.1 (List.mem_map.2 ⟨e, he, rfl⟩)
    have hy : endsWith e.1 dotYml = true := by
      have := filePath_ends E w f
      rw [← hj, join_path hE hsl] at this
      obtain ⟨u, hu⟩ := (endsWith_iff _ _).1 this
      rcases List.append_eq_append_iff.1 hu with ⟨c, h1, h2⟩ | ⟨c, h1, h2⟩
      · cases c with
        | nil => simp [dotYml] at h2
        | cons x c =>
          simp only [List.cons_append, List.cons.injEq] at h2
          exact (endsWith_iff _ _).2 ⟨c, h2.2⟩
      · exfalso
        have : '/' ∈ dotYml := by rw [h2]; simp
        revert this; decide
    obtain ⟨d', h1, -, h3, -⟩ := ht.pkgs e.1 e.2 (look_of_mem ht.names (by exact he)) hy
    rw [hread] at h1
    cases h1
    exact h3

theorem stamp_requires (d : Doc B) (r : Text) : d.stamp.Requires r ↔ d.Requires r := by unfold Doc.Requires; rw [stamp_reqs]

theorem arranged_prefix {t : List Text} {a b : List (Doc B)} (h : Arranged t (a ++ b)) : Arranged t a := by
  intro x d y he
  exact h x d (y ++ b) (by rw [he]; simp)

theorem closed_nil : Closed ([] : List (Text × File B R)) := ⟨[], fun d => by simp [docIn, look_nil], fun b d a h => by cases b <;> cases h⟩

/-- The packages after writing some new ones: those before and the new ones, in an order that respects the requirements. -/
theorem docs_stored {gr : List (Text × R)} {ds all docs : List (Doc B)} {dir dir' : List (Text × File B R)} {inst : List Text} (hr : Read gr all) (hsub : ds.Sublist all) (ht : Tidy dir)
    (h : storeDocs gr dir ds = (dir', none)) (hm : ∀ d, d ∈ docs ↔ ∃ i, docIn dir i = some d) (ha : Arranged [] docs) (harr : Arranged inst ds) (hinst : ∀ r ∈ inst, ∃ d, docIn dir r = some d)
    (hnew : ∀ d ∈ ds, docIn dir d.ident = none) : (∀ d, d ∈ docs ++ ds.map Doc.stamp ↔ ∃ i, docIn dir' i = some d) ∧ Arranged [] (docs ++ ds.map Doc.stamp) := by
  obtain ⟨ht', h1, h2⟩ := tidy_stored hr hsub ht h
  refine ⟨?_, ?_⟩
  · intro d
    rw [List.mem_append, List.mem_map]
    constructor
    · rintro (hd | ⟨x, hx, rfl⟩)
      · obtain ⟨i, hi⟩ := (hm d).1 hd
        refine ⟨i, ?_⟩
        rw [h2 i, hi]
        intro hmem
        obtain ⟨x, hx, rfl⟩ := List.mem_map.1 hmem
        rw [hnew x hx] at hi
        cases hi
      · exact ⟨x.ident, h1 x hx⟩
    · rintro ⟨i, hi⟩
      by_cases hmem : i ∈ ds.map Doc.ident
      · obtain ⟨x, hx, rfl⟩ := List.mem_map.1 hmem
        rw [h1 x hx] at hi
        cases hi
        exact Or.inr ⟨x, hx, rfl⟩
      · rw [h2 i hmem] at hi
        exact Or.inl ((hm d).2 ⟨i, hi⟩)
  · intro b d a he r hreq
    rcases List.append_eq_append_iff.1 he with ⟨c, e1, e2⟩ | ⟨c, e1, e2⟩
    · -- d among the new ones
      obtain ⟨c', l', q1, q2, q3⟩ := List.map_eq_append_iff.1 e2
      obtain ⟨x, a', q4, q5, q6⟩ := List.map_eq_cons_iff.1 q3
      subst q1 q2 q4 q5 q6 e1
      rcases harr c' x a' rfl r ((stamp_requires x r).1 hreq) with h3 | ⟨y, hy, rfl⟩
      · obtain ⟨y, hy⟩ := hinst r h3
        exact Or.inr ⟨y, List.mem_append_left _ ((hm y).2 ⟨r, hy⟩), (ht.ident hy).1⟩
      · exact Or.inr ⟨y.stamp, List.mem_append_right _ (List.mem_map.2 ⟨y, hy, rfl⟩), stamp_ident y⟩
    · cases c with
      | nil =>
        simp only [List.nil_append, List.append_nil] at e1 e2
        subst e1
        obtain ⟨x, a', q4, q5, q6⟩ := List.map_eq_cons_iff.1 e2.symm
        subst q4 q5 q6
        rcases harr [] x a' rfl r ((stamp_requires x r).1 hreq) with h3 | ⟨y, hy, -⟩
        · obtain ⟨y, hy⟩ := hinst r h3
          exact Or.inr ⟨y, (hm y).2 ⟨r, hy⟩, (ht.ident hy).1⟩
        · cases hy
      | cons y c =>
        simp only [List.cons_append, List.cons.injEq] at e2
        obtain ⟨rfl, e2⟩ := e2
        exact ha b d c e1 r hreq

theorem closed_stored {gr : List (Text × R)} {ds all : List (Doc B)} {dir dir' : List (Text × File B R)} {inst : List Text} (hr : Read gr all) (hsub : ds.Sublist all) (ht : Tidy dir)
    (h : storeDocs gr dir ds = (dir', none)) (hc : Closed dir) (harr : Arranged inst ds) (hinst : ∀ r ∈ inst, ∃ d, docIn dir r = some d) (hnew : ∀ d ∈ ds, docIn dir d.ident = none) : Closed dir' := by
  obtain ⟨docs, hm, ha⟩ := hc
  exact ⟨_, docs_stored hr hsub ht h hm ha harr hinst hnew⟩

theorem closed_storeReg (E : Env G B R) (g : G) {dir : List (Text × File B R)} (h : Closed dir) : Closed (storeReg E g dir) := by
  obtain ⟨docs, h1, h2⟩ := h
  exact ⟨docs, fun d => by rw [h1]; simp only [docIn_storeReg], h2⟩

end Osp.Install
