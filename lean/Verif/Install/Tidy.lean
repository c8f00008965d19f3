import Verif.Install.Files
/-!
# The installation directory: what holds in every reachable state
-/
namespace Osp.Install
open Osp.Names (lower)
variable {G B R : Type}

/-- Sets are enumerated in some order, each element once; the installation directory has a name. -/
structure Fair (E : Env G B R) : Prop where
  path : E.path ≠ []
  files : ∀ l, (E.enumF l).Nodup ∧ ∀ x, x ∈ E.enumF l ↔ x ∈ l
  pairs : ∀ l, (E.enumP l).Nodup ∧ ∀ x, x ∈ E.enumP l ↔ x ∈ l

/-- The document in the file `i.yml` of a directory. -/
def docIn (dir : List (Text × File B R)) (i : Text) : Option (Doc B) :=
  match look dir (i ++ dotYml) with
  | some (.pkg d) => some d
  | _ => none

theorem docOf_eq (w : World G B R) (i : Text) : w.docOf i = docIn w.dir i := rfl

/-- Every YAML file of the directory is the document of a package and named after it; RDF packages come with their RDF file. -/
structure Tidy (dir : List (Text × File B R)) : Prop where
  names : (dir.map (·.1)).Nodup
  slash : ∀ n ∈ dir.map (·.1), '/' ∉ n
  pkgs : ∀ n f, look dir n = some f → endsWith n dotYml = true → ∃ d, f = .pkg d ∧ n = d.ident ++ dotYml ∧ '.' ∉ d.ident ∧ d.reqs ≠ .other ∧
    (d.owl = true → d.name = d.ident ∧ d.file = d.ident ++ dotXml ∧ d.reqs = .absent ∧ ∃ c, look dir (d.ident ++ dotXml) = some (.rdf xml c))

theorem tidy_nil : Tidy ([] : List (Text × File B R)) := ⟨by simp, by simp, fun n f h => by cases h⟩

theorem char_lower (c : Char) : c.toLower.toLower = c.toLower := by
  unfold Char.toLower
  by_cases h : c.val ≥ 65 ∧ c.val ≤ 90
  · have h1 : 65 ≤ c.val.toNat := UInt32.le_iff_toNat_le.1 h.1
    have h2 : c.val.toNat ≤ 90 := UInt32.le_iff_toNat_le.1 h.2
    have h3 : ¬ (c.val + 32 ≥ 65 ∧ c.val + 32 ≤ 90) := by
      rintro ⟨-, h4⟩
      have h5 := UInt32.le_iff_toNat_le.1 h4
      rw [UInt32.toNat_add] at h5
      simp only [UInt32.reduceToNat] at h5
      omega
    simp only [ge_iff_le] at h h3
    simp [h, h3]
  · simp only [ge_iff_le] at h
    simp [h]

theorem lower_lower (t : Text) : lower (lower t) = lower t := by
  simp only [lower, List.map_map]
  exact List.map_congr_left (fun c _ => char_lower c)

theorem nodup_of_map {α β : Type} (f : α → β) {l : List α} (h : (l.map f).Nodup) : l.Nodup := by
  induction l with
  | nil => simp
  | cons a l ih =>
    simp only [List.map_cons, List.nodup_cons] at h
    exact List.nodup_cons.2 ⟨fun ha => h.1 (List.mem_map.2 ⟨a, ha, rfl⟩), ih h.2⟩

theorem eq_of_nodup_map {α β : Type} (f : α → β) {l : List α} (h : (l.map f).Nodup) {a b : α} (ha : a ∈ l) (hb : b ∈ l) (he : f a = f b) : a = b := by
  induction l with
  | nil => cases ha
  | cons x l ih =>
    simp only [List.map_cons, List.nodup_cons] at h
    rcases List.mem_cons.1 ha with ha1 | ha1
    · rcases List.mem_cons.1 hb with hb1 | hb1
      · rw [ha1, hb1]
      · exact absurd (List.mem_map.2 ⟨b, hb1, by rw [← he, ha1]⟩) h.1
    · rcases List.mem_cons.1 hb with hb1 | hb1
      · exact absurd (List.mem_map.2 ⟨a, ha1, by rw [he, hb1]⟩) h.1
      · exact ih h.2 ha1 hb1

theorem ident_name_nodup {ds : List (Doc B)} (h : (ds.map Doc.ident).Nodup) : (ds.map (·.name)).Nodup := by
  have : ds.map Doc.ident = (ds.map (·.name)).map lower := by simp [List.map_map, Function.comp_def, Doc.ident]
  rw [this] at h
  exact nodup_of_map _ h

theorem docIn_some {dir : List (Text × File B R)} {i : Text} {d : Doc B} : docIn dir i = some d ↔ look dir (i ++ dotYml) = some (.pkg d) := by
  unfold docIn
  cases h : look dir (i ++ dotYml) with
  | none => simp
  | some f => cases f <;> simp

theorem Tidy.ident {dir : List (Text × File B R)} (h : Tidy dir) {i : Text} {d : Doc B} (hd : docIn dir i = some d) :
    d.ident = i ∧ '.' ∉ i ∧ d.reqs ≠ .other ∧ (d.owl = true → d.name = i ∧ d.file = i ++ dotXml ∧ d.reqs = .absent ∧ ∃ c, look dir (i ++ dotXml) = some (.rdf xml c)) := by
  obtain ⟨d', h1, h2, h3, hl, h4⟩ := h.pkgs _ _ (docIn_some.1 hd) ((endsWith_iff _ _).2 ⟨i, rfl⟩)
  cases h1
  have := app_yml_inj h2
  subst this
  exact ⟨rfl, h3, hl, h4⟩

theorem Tidy.noSlash {dir : List (Text × File B R)} (h : Tidy dir) {i : Text} {d : Doc B} (hd : docIn dir i = some d) : '/' ∉ i := by
  have := h.slash (i ++ dotYml) (List.mem_map.2 ⟨_, look_mem (docIn_some.1 hd), rfl⟩)
  exact fun hm => this (List.mem_append_left _ hm)

/-! ### what is installed -/

theorem splitOn_head_ident {i : Text} (h : '.' ∉ i) : (splitOn '.' (i ++ dotYml)).headD [] = i := by
  rw [show dotYml = '.' :: ['y', 'm', 'l'] from rfl, splitOn_append _ _ _ h]
  rfl

theorem mem_packages {E : Env G B R} {w : World G B R} (h : Tidy w.dir) {i p : Text} : (i, p) ∈ w.packages E ↔ ∃ d, w.docOf i = some d ∧ p = join E.path (i ++ dotYml) := by
  simp only [World.packages, List.mem_map, List.mem_filter]
  constructor
  · rintro ⟨e, ⟨he, hy⟩, heq⟩
    obtain ⟨d, h1, h2, h3, -⟩ := h.pkgs e.1 e.2 (look_of_mem h.names he) hy
    rw [h2] at heq
    rw [splitOn_head_ident h3] at heq
    cases heq
    refine ⟨d, ?_, rfl⟩
    rw [docOf_eq, docIn_some, ← h2, look_of_mem h.names he, h1]
  · rintro ⟨d, hd, rfl⟩
    rw [docOf_eq] at hd
    obtain ⟨h1, h2, -⟩ := h.ident hd
    refine ⟨(i ++ dotYml, .pkg d), ⟨look_mem (docIn_some.1 hd), (endsWith_iff _ _).2 ⟨i, rfl⟩⟩, ?_⟩
    rw [splitOn_head_ident h2]

/-- The packages listed as installed are those with a document. -/
theorem mem_installed {E : Env G B R} {w : World G B R} (h : Tidy w.dir) {i : Text} : i ∈ w.installed E ↔ ∃ d, w.docOf i = some d := by
  simp only [World.installed, List.mem_map]
  constructor
  · rintro ⟨⟨a, p⟩, he, rfl⟩
    obtain ⟨d, hd, -⟩ := (mem_packages h).1 he
    exact ⟨d, hd⟩
  · rintro ⟨d, hd⟩
    exact ⟨(i, _), (mem_packages h).2 ⟨d, hd, rfl⟩, rfl⟩

theorem toDict_nodup {α : Type} : ∀ (l d : List (Text × α)), ((d ++ l).map (·.1)).Nodup → l.foldl (fun d e => put e.1 e.2 d) d = d ++ l := by
  intro l
  induction l with
  | nil => intro d _; simp
  | cons e l ih =>
    intro d h
    have hput : ∀ d : List (Text × α), e.1 ∉ d.map (·.1) → put e.1 e.2 d = d ++ [e] := by
      intro d
      induction d with
      | nil => intro _; simp [put]
      | cons x d ih2 =>
        intro hx
        simp only [List.map_cons, List.mem_cons, not_or] at hx
        have : ¬ x.1 = e.1 := fun h => hx.1 h.symm
        simp only [put, this, if_false, ih2 hx.2, List.cons_append]
    have hn : e.1 ∉ d.map (·.1) := by
      rw [List.map_append, List.nodup_append] at h
      intro hm
      exact h.2.2 e.1 hm e.1 (by simp) rfl
    rw [List.foldl_cons, hput d hn, ih]
    · simp
    · simpa using h

theorem inst_dict {E : Env G B R} (hE : Fair E) {w : World G B R} (h : Tidy w.dir) :
    toDict (E.enumP (w.packages E)) = E.enumP (w.packages E) ∧ ((E.enumP (w.packages E)).map (·.1)).Nodup := by
  have hn : ((E.enumP (w.packages E)).map (·.1)).Nodup := by
    obtain ⟨h1, h2⟩ := hE.pairs (w.packages E)
    have : ∀ l : List (Text × Text), l.Nodup → (∀ x ∈ l, x ∈ w.packages E) → (l.map (·.1)).Nodup := by
      intro l
      induction l with
      | nil => intro _ _; simp
      | cons e l ih =>
        intro hl hm
        simp only [List.nodup_cons] at hl
        refine List.nodup_cons.2 ⟨?_, ih hl.2 (fun x hx => hm x (List.mem_cons_of_mem _ hx))⟩
        intro hx
        obtain ⟨x, hx, he⟩ := List.mem_map.1 hx
        obtain ⟨-, -, hp⟩ := (mem_packages (i := e.1) (p := e.2) h).1 (hm e List.mem_cons_self)
        obtain ⟨-, -, hp2⟩ := (mem_packages (i := x.1) (p := x.2) h).1 (hm x (List.mem_cons_of_mem _ hx))
        have : x = e := Prod.ext he (by rw [hp, hp2, he])
        exact hl.1 (this ▸ hx)
    exact this _ h1 (fun x hx => (h2 x).1 hx)
  refine ⟨?_, hn⟩
  have := toDict_nodup (E.enumP (w.packages E)) [] (by simpa using hn)
  simpa [toDict] using this

theorem look_inst {E : Env G B R} (hE : Fair E) {w : World G B R} (h : Tidy w.dir) (i : Text) : (look (toDict (E.enumP (w.packages E))) i).isSome ↔ ∃ d, w.docOf i = some d := by
  rw [(inst_dict hE h).1, Option.isSome_iff_ne_none]
  rw [← mem_installed (E := E) h]
  constructor
  · intro hn
    have : i ∈ (E.enumP (w.packages E)).map (·.1) := by
      exact Decidable.byContradiction (fun hc => hn (look_none.2 hc))
    obtain ⟨e, he, rfl⟩ := List.mem_map.1 this
    exact List.mem_map.2 ⟨e, ((hE.pairs _).2 e).1 he, rfl⟩
  · intro hi hn
    obtain ⟨e, he, rfl⟩ := List.mem_map.1 hi
    exact look_none.1 hn (List.mem_map.2 ⟨e, ((hE.pairs _).2 e).2 he, rfl⟩)

/-! ### reading an installed package -/

theorem join_path {E : Env G B R} (hE : Fair E) {n : Text} (h : '/' ∉ n) : join E.path n = E.path ++ '/' :: n := by
  unfold join
  have : n.head? ≠ some '/' := by
    cases n with
    | nil => simp
    | cons c t => intro hc; simp only [List.head?_cons, Option.some.injEq] at hc; subst hc; exact h List.mem_cons_self
  simp [this, hE.path]

theorem read_join {E : Env G B R} (hE : Fair E) {w : World G B R} (h : Tidy w.dir) {n : Text} {f : File B R} (hf : look w.dir n = some f) : w.read E (join E.path n) = some f := by
  have hmem := look_mem hf
  have hs := h.slash n (List.mem_map.2 ⟨_, hmem, rfl⟩)
  have hfind : w.dir.find? (fun e => join E.path e.1 = join E.path n) = w.dir.find? (fun e => e.1 = n) := by
    have : ∀ l : List (Text × File B R), (∀ e ∈ l, '/' ∉ e.1) → l.find? (fun e => join E.path e.1 = join E.path n) = l.find? (fun e => e.1 = n) := by
      intro l
      induction l with
      | nil => intro _; rfl
      | cons e l ih =>
        intro hl
        simp only [List.find?_cons]
        have he := hl e List.mem_cons_self
        have : (join E.path e.1 = join E.path n) ↔ e.1 = n := by
          rw [join_path hE he, join_path hE hs]
          simp
        by_cases hc : e.1 = n
        · simp [hc]
        · simp only [this, hc, decide_false]
          exact ih (fun x hx => hl x (List.mem_cons_of_mem _ hx))
    exact this w.dir (fun e he => h.slash e.1 (List.mem_map.2 ⟨e, he, rfl⟩))
  unfold World.read
  rw [hfind]
  unfold look at hf
  cases hq : w.dir.find? (fun e => e.1 = n) with
  | none => rw [hq] at hf; cases hf
  | some e => rw [hq] at hf; simpa using hf

theorem filePath_yml {E : Env G B R} {w : World G B R} {t : Text} (h : endsWith t dotYml = true) : filePath E w t = t := by
  simp [filePath, h]

theorem join_yml (d i : Text) : endsWith (join d (i ++ dotYml)) dotYml = true := by
  rw [endsWith_iff]
  unfold join
  split
  · exact ⟨i, rfl⟩
  · exact ⟨d ++ '/' :: i, by simp⟩

theorem readDoc_installed {E : Env G B R} (hE : Fair E) {w : World G B R} (h : Tidy w.dir) {i : Text} {d : Doc B} (hd : w.docOf i = some d) :
    readDoc E w (join E.path (i ++ dotYml)) = .ok d := by
  unfold readDoc
  rw [filePath_yml (join_yml _ _), read_join hE h (docIn_some.1 hd)]

theorem dirname_join {d n : Text} (h : '/' ∉ n) : dirname (d ++ '/' :: n) = d := by
  unfold dirname
  rw [Osp.Names.splitOn_last _ _ _ h, List.dropLast_concat, Osp.Names.joinWith_splitOn]

/-- The RDF file of an installed package is the one beside its document. -/
theorem read_rdf_installed {E : Env G B R} (hE : Fair E) {w : World G B R} (h : Tidy w.dir) {i : Text} {d : Doc B} (hd : w.docOf i = some d) (ho : d.owl = true) :
    ∃ c, look w.dir (i ++ dotXml) = some (.rdf xml c) ∧ w.read E (rdfPath (filePath E w (join E.path (i ++ dotYml))) d) = some (.rdf xml c) := by
  obtain ⟨-, -, -, h3⟩ := h.ident hd
  obtain ⟨-, hfile, -, c, hc⟩ := h3 ho
  have hs := h.noSlash hd
  refine ⟨c, hc, ?_⟩
  have hsx : '/' ∉ i ++ dotXml := h.slash _ (List.mem_map.2 ⟨_, look_mem hc, rfl⟩)
  have hsy : '/' ∉ i ++ dotYml := h.slash _ (List.mem_map.2 ⟨_, look_mem (docIn_some.1 hd), rfl⟩)
  have hnot : ∀ p : Text, '/' ∈ p → p.isPrefixOf (i ++ dotXml) = false := by
    intro p hp
    cases hq : p.isPrefixOf (i ++ dotXml) with
    | false => rfl
    | true =>
      obtain ⟨t, ht⟩ := List.isPrefixOf_iff_prefix.1 hq
      exact absurd (ht ▸ List.mem_append_left t hp) hsx
  have : rdfPath (filePath E w (join E.path (i ++ dotYml))) d = join E.path (i ++ dotXml) := by
    rw [filePath_yml (join_yml _ _), join_path hE hsy]
    unfold rdfPath
    rw [hfile, hnot _ (by decide), hnot _ (by decide), dirname_join hsy]
    rfl
  rw [this]
  exact read_join hE h hc

/-! ### writing keeps the directory tidy -/

/-- Documents that came out of the parser. -/
structure Read (gr : List (Text × R)) (ds : List (Doc B)) : Prop where
  once : (ds.map Doc.ident).Nodup
  dots : ∀ d ∈ ds, '.' ∉ d.ident
  rdf : ∀ d ∈ ds, d.owl = true → d.reqs = .absent
  listed : ∀ d ∈ ds, d.reqs ≠ .other
  known : ∀ k c, look gr k = some c → ∃ d ∈ ds, d.owl = true ∧ d.name = k

theorem known_name {gr : List (Text × R)} {ds all : List (Doc B)} (hr : Read gr all) (hsub : ∀ d ∈ ds, d ∈ all) {d : Doc B} (hd : d ∈ ds) {c : R} (hc : look gr d.ident = some c) : d.name = d.ident := by
  obtain ⟨d', hd', ho, hn⟩ := hr.known _ _ hc
  have hid : d'.ident = d.ident := by
    unfold Doc.ident
    rw [hn]
    exact lower_lower _
  have : d' = d := eq_of_nodup_map Doc.ident hr.once hd' (hsub d hd) hid
  rw [this] at hn
  exact hn

/-- What writing documents that came out of the parser does to a tidy directory. -/
theorem tidy_stored {gr : List (Text × R)} {ds all : List (Doc B)} {dir dir' : List (Text × File B R)} (hr : Read gr all) (hsub : ds.Sublist all) (ht : Tidy dir) (h : storeDocs gr dir ds = (dir', none)) :
    Tidy dir' ∧ (∀ d ∈ ds, docIn dir' d.ident = some d.stamp) ∧ (∀ i, i ∉ ds.map Doc.ident → docIn dir' i = docIn dir i) := by
  have hn : (ds.map Doc.ident).Nodup := hr.once.sublist (hsub.map _)
  obtain ⟨h1, h2, h3, h4⟩ := storeDocs_ok ds dir dir' hn h
  refine ⟨⟨h3 ht.names, ?_, ?_⟩, ?_, ?_⟩
  · intro n hnm
    rcases h4 n hnm with h5 | ⟨d, hd, h5 | ⟨-, h5⟩⟩
    · exact ht.slash n h5
    · rw [h5]; intro hm
      rcases List.mem_append.1 hm with hm | hm
      · exact (h1 d hd).1 hm
      · revert hm; decide
    · rw [h5]; intro hm
      rcases List.mem_append.1 hm with hm | hm
      · exact (h1 d hd).1 hm
      · revert hm; decide
  · intro n f hf hy
    by_cases hc : ∃ d ∈ ds, n = d.ident ++ dotYml
    · obtain ⟨d, hd, rfl⟩ := hc
      obtain ⟨-, h5, h6⟩ := h1 d hd
      rw [h5] at hf
      cases hf
      refine ⟨d.stamp, rfl, by rw [stamp_ident], by rw [stamp_ident]; exact hr.dots d (hsub.subset hd), by rw [stamp_reqs]; exact hr.listed d (hsub.subset hd), ?_⟩
      rw [stamp_ident, stamp_owl, stamp_name, stamp_reqs]
      intro ho
      obtain ⟨c, hc1, hc2⟩ := h6 ho
      refine ⟨known_name hr (fun x hx => hsub.subset hx) hd hc1, ?_, hr.rdf d (hsub.subset hd) ho, c, hc2⟩
      simp [Doc.stamp, ho]
    · have hkeep : look dir' n = look dir n := h2 n (fun d hd => ⟨fun he => hc ⟨d, hd, he⟩, fun _ he => by
        rw [he, endsWith_iff] at hy
        obtain ⟨u, hu⟩ := hy
        exact xml_ne_yml _ _ hu⟩)
      rw [hkeep] at hf
      obtain ⟨d, hd1, hd2, hd3, hd3l, hd4⟩ := ht.pkgs n f hf hy
      refine ⟨d, hd1, hd2, hd3, hd3l, fun ho => ?_⟩
      obtain ⟨a, b, c, r, hcr⟩ := hd4 ho
      refine ⟨a, b, c, r, ?_⟩
      rw [h2 _ (fun x hx => ⟨xml_ne_yml _ _, fun _ he => hc ⟨x, hx, ?_⟩⟩), hcr]
      rw [hd2, app_xml_inj he]
  · intro d hd
    exact docIn_some.2 (h1 d hd).2.1
  · intro i hi
    unfold docIn
    rw [h2 (i ++ dotYml) (fun d hd => ⟨fun he => hi (List.mem_map.2 ⟨d, hd, (app_yml_inj he).symm⟩), fun _ he => xml_ne_yml _ _ he.symm⟩)]

/-- If writing fails, the documents before the failing one have been written. -/
theorem storeDocs_prefix {gr : List (Text × R)} : ∀ (ds : List (Doc B)) (dir dir' : List (Text × File B R)) (e : PyErr), storeDocs gr dir ds = (dir', some e) →
    ∃ pre d post, ds = pre ++ d :: post ∧ storeDocs gr dir pre = (dir', none) ∧ storeDoc gr dir' d = (dir', some e) := by
  intro ds
  induction ds with
  | nil => intro dir dir' e h; cases h
  | cons d l ih =>
    intro dir dir' e h
    simp only [storeDocs] at h
    cases hs : storeDoc gr dir d with
    | mk dir1 oe =>
      rw [hs] at h
      cases oe with
      | none =>
        obtain ⟨pre, x, post, h1, h2, h3⟩ := ih dir1 dir' e h
        exact ⟨d :: pre, x, post, by rw [h1]; rfl, by simp only [storeDocs, hs, h2], h3⟩
      | some e1 =>
        simp only [Prod.mk.injEq, Option.some.injEq] at h
        obtain ⟨rfl, rfl⟩ := h
        have hdir : dir1 = dir := by
          unfold storeDoc at hs
          simp only at hs
          split at hs
          · split at hs
            · exact (Prod.mk.inj hs).1.symm
            · split at hs
              · exact (Prod.mk.inj hs).1.symm
              · cases hs
          · split at hs
            · exact (Prod.mk.inj hs).1.symm
            · cases hs
        subst hdir
        exact ⟨[], d, l, rfl, rfl, hs⟩

theorem graph_ne_yml (i : Text) : i ++ dotYml ≠ graphXml := by
  rw [show graphXml = ['g', 'r', 'a', 'p', 'h'] ++ dotXml from rfl]
  exact fun h => xml_ne_yml _ _ h.symm

theorem txt_ne (i : Text) : i ++ dotYml ≠ namespacesTxt ∧ i ++ dotXml ≠ namespacesTxt := by
  constructor <;> intro h <;> have := congrArg (fun t => t.reverse.take 1) h <;> simp [dotXml, dotYml, namespacesTxt] at this

theorem docIn_storeReg (E : Env G B R) (g : G) (dir : List (Text × File B R)) (i : Text) : docIn (storeReg E g dir) i = docIn dir i := by
  unfold docIn storeReg
  rw [look_put, if_neg (txt_ne i).1, look_put, if_neg (graph_ne_yml i)]

theorem tidy_storeReg (E : Env G B R) (g : G) {dir : List (Text × File B R)} (h : Tidy dir) : Tidy (storeReg E g dir) := by
  have hy : ∀ n, endsWith n dotYml = true → look (storeReg E g dir) n = look dir n := by
    intro n hn
    obtain ⟨u, rfl⟩ := (endsWith_iff _ _).1 hn
    unfold storeReg
    rw [look_put, if_neg (txt_ne u).1, look_put, if_neg (graph_ne_yml u)]
  refine ⟨put_nodup _ _ (put_nodup _ _ h.names), ?_, ?_⟩
  · intro n hn
    unfold storeReg at hn
    have hk : ∀ (m : Text) (v : File B R) (q : List (Text × File B R)), n ∈ (put m v q).map (·.1) → n = m ∨ n ∈ q.map (·.1) := by
      intro m v q hq
      rw [put_keys] at hq
      split at hq
      · exact Or.inr hq
      · rcases List.mem_append.1 hq with h5 | h5
        · exact Or.inr h5
        · exact Or.inl (by simpa using h5)
    rcases hk _ _ _ hn with rfl | hn
    · decide
    · rcases hk _ _ _ hn with rfl | hn
      · decide
      · exact h.slash n hn
  · intro n f hf hn
    rw [hy n hn] at hf
    obtain ⟨d, h1, h2, h3, h3l, h4⟩ := h.pkgs n f hf hn
    refine ⟨d, h1, h2, h3, h3l, fun ho => ?_⟩
    obtain ⟨a, b, c, r, hr⟩ := h4 ho
    refine ⟨a, b, c, ?_⟩
    unfold storeReg
    rw [look_put, if_neg (txt_ne d.ident).2, look_put]
    split
    · exact ⟨_, rfl⟩
    · exact ⟨r, hr⟩

end Osp.Install
