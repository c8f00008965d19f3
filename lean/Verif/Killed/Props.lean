import Verif.Killed.Model
import Verif.Pico.Props
/-! # Properties of commands that are killed -/
namespace Osp.Killed
open Osp.Install

variable {G B R : Type} {E : Env G B R}

/-! ### The operations are those of the command -/

theorem exec_docOps (gr : List (Text × R)) (dir : List (Text × File B R)) (d : Doc B) :
    (∀ ops, docOps gr d = some ops → storeDoc gr dir d = (ops.foldl FOp.exec dir, none)) ∧
    (docOps gr d = none → ∃ e, storeDoc gr dir d = (dir, some e)) := by
  unfold docOps storeDoc
  simp only
  by_cases hx : d.owl = true
  · rw [if_pos hx, if_pos hx]
    cases look gr d.ident with
    | none => simp
    | some c =>
      by_cases hs : '/' ∈ d.ident
      · simp [hs]
      · simp only [hs, if_false]
        refine ⟨fun ops h => ?_, fun h => by cases h⟩
        cases h
        rfl
  · rw [if_neg hx, if_neg hx]
    by_cases hs : '/' ∈ d.ident
    · simp [hs]
    · simp only [hs, if_false]
      refine ⟨fun ops h => ?_, fun h => by cases h⟩
      cases h
      rfl

theorem exec_docsOps (gr : List (Text × R)) (ds : List (Doc B)) : ∀ dir : List (Text × File B R),
    (storeDocs gr dir ds).1 = (docsOps gr ds).1.foldl FOp.exec dir ∧ ((storeDocs gr dir ds).2 = none ↔ (docsOps gr ds).2 = true) := by
  induction ds with
  | nil => intro dir; simp [storeDocs, docsOps]
  | cons d ds ih =>
    intro dir
    unfold storeDocs docsOps
    obtain ⟨h1, h2⟩ := exec_docOps gr dir d
    cases ho : docOps gr d with
    | none =>
      obtain ⟨e, he⟩ := h2 ho
      simp [he]
    | some ops =>
      rw [h1 ops ho]
      simp only [List.foldl_append]
      exact ih _

theorem exec_removeAll (l dir : List (Text × File B R)) :
    (l.map (fun e => (FOp.remove e.1 : FOp B R))).foldl FOp.exec dir = dir.filter (fun e => e.1 ∉ l.map (·.1)) := by
  induction l generalizing dir with
  | nil =>
    simp only [List.map_nil, List.foldl_nil]
    exact (List.filter_eq_self.2 (by simp)).symm
  | cons a l ih =>
    simp only [List.map_cons, List.foldl_cons, FOp.exec]
    rw [ih, List.filter_filter]
    congr 1
    funext e
    rw [← Bool.decide_and]
    apply decide_eq_decide.2
    rw [List.mem_cons, not_or]
    exact and_comm

/-- **C109.** A command that is not killed does all its operations: they give the directory that the command leaves. -/
theorem planned_whole (filter : World G B R → List Text → Except PyErr (List Text)) (clear : Bool) (w : World G B R) (files : List Text) :
    (planned E filter clear w files).foldl FOp.exec w.dir = (install' E filter clear w files).1.dir := by
  have hrem : (w.dir.map (fun e => (FOp.remove e.1 : FOp B R))).foldl FOp.exec w.dir = [] := by
    rw [exec_removeAll, List.filter_eq_nil_iff]
    intro e he
    simp only [decide_not, Bool.not_eq_true', decide_eq_false_iff_not, Classical.not_not]
    exact List.mem_map.2 ⟨e, he, rfl⟩
  unfold planned install'
  simp only
  cases filter (if clear = true then { w with graph := E.cuba, names := E.cuba } else w) files with
  | error e => cases clear <;> rfl
  | ok fs =>
    simp only
    cases sortFor E (if clear = true then { w with graph := E.cuba, names := E.cuba } else w) fs (if clear = true then [] else w.installed E) with
    | error e => cases clear <;> rfl
    | ok order =>
      simp only
      cases hp : parseAll E (if clear = true then { w with graph := E.cuba, names := E.cuba } else w)
        { graph := (if clear = true then { w with graph := E.cuba, names := E.cuba } else w).graph, docs := [], graphs := [] } order with
      | mk P o =>
        cases o with
        | some e => cases clear <;> rfl
        | none =>
          simp only [List.foldl_append]
          have hstart : (if clear = true then w.dir.map (fun e => (FOp.remove e.1 : FOp B R)) else []).foldl FOp.exec w.dir =
              if clear = true then [] else (if clear = true then { w with graph := E.cuba, names := E.cuba } else w).dir := by
            cases clear
            · rfl
            · simpa using hrem
          rw [hstart]
          obtain ⟨h1, h2⟩ := exec_docsOps P.graphs P.docs (if clear = true then [] else (if clear = true then { w with graph := E.cuba, names := E.cuba } else w).dir)
          rw [← h1]
          cases hs : storeDocs P.graphs (if clear = true then [] else (if clear = true then { w with graph := E.cuba, names := E.cuba } else w).dir) P.docs with
          | mk dir o =>
            rw [hs] at h2
            cases o with
            | none =>
              rw [if_pos (h2.1 rfl)]
              rfl
            | some e =>
              rw [if_neg (fun h => by cases h2.2 h)]
              rfl

/-! ### What is left -/

/-- The names of the files that an operation changes. Proof device; nothing in /repo. -/
def FOp.name : FOp B R → Text
  | .remove n => n
  | .write n _ => n

theorem look_exec (dir : List (Text × File B R)) (op : FOp B R) (n : Text) (h : n ≠ op.name) : look (op.exec dir) n = look dir n := by
  cases op with
  | write m f =>
    simp only [FOp.exec, look_put]
    exact if_neg h
  | remove m =>
    unfold look
    simp only [FOp.name] at h
    simp only [FOp.exec]
    congr 1
    induction dir with
    | nil => rfl
    | cons e dir ih =>
      by_cases he : e.1 = m
      · have : e.1 ≠ n := fun h' => h (h'.symm.trans he)
        simp only [List.find?_cons, this, decide_false]
        rw [List.filter_cons_of_neg (by simpa using he)]
        exact ih
      · rw [List.filter_cons_of_pos (by simpa using he)]
        simp only [List.find?_cons]
        split
        · rfl
        · exact ih

theorem look_execs (ops : List (FOp B R)) (dir : List (Text × File B R)) (n : Text) (h : ∀ op ∈ ops, n ≠ op.name) : look (ops.foldl FOp.exec dir) n = look dir n := by
  induction ops generalizing dir with
  | nil => rfl
  | cons op ops ih =>
    rw [List.foldl_cons, ih _ fun o ho => h o (List.mem_cons_of_mem _ ho), look_exec _ _ _ (h op (by simp))]

/-- Files that no operation changes are there whenever the process is killed. -/
theorem left_untouched {ops : List (FOp B R)} {dir dir' : List (Text × File B R)} (h : Left ops dir dir') (n : Text) (hn : ∀ op ∈ ops, n ≠ op.name) : look dir' n = look dir n := by
  obtain ⟨k, rfl | ⟨m, f, c, hk, rfl⟩⟩ := h
  · exact look_execs _ _ _ fun op ho => hn op (List.mem_of_mem_take ho)
  · rw [look_put, if_neg (show ¬ n = m from hn _ (List.mem_of_getElem? hk))]
    exact look_execs _ _ _ fun op ho => hn op (List.mem_of_mem_take ho)

theorem docsOps_names (gr : List (Text × R)) (ds : List (Doc B)) : ∀ op ∈ (docsOps gr ds).1, ∃ d ∈ ds, op.name = d.ident ++ dotYml ∨ op.name = d.ident ++ dotXml := by
  induction ds with
  | nil => simp [docsOps]
  | cons d ds ih =>
    intro op hop
    unfold docsOps at hop
    cases ho : docOps gr d with
    | none => rw [ho] at hop; simp at hop
    | some ops =>
      rw [ho] at hop
      simp only [List.mem_append] at hop
      rcases hop with hop | hop
      · refine ⟨d, by simp, ?_⟩
        unfold docOps at ho
        simp only at ho
        split at ho
        · split at ho
          · cases ho
          · split at ho
            · cases ho
            · cases ho
              simp only [List.mem_cons, List.not_mem_nil, or_false] at hop
              rcases hop with rfl | rfl
              · exact Or.inr rfl
              · exact Or.inl rfl
        · split at ho
          · cases ho
          · cases ho
            simp only [List.mem_cons, List.not_mem_nil, or_false] at hop
            subst hop
            exact Or.inl rfl
      · obtain ⟨d', hd', h⟩ := ih op hop
        exact ⟨d', List.mem_cons_of_mem _ hd', h⟩

theorem docsOps_writes (gr : List (Text × R)) (ds : List (Doc B)) : ∀ op ∈ (docsOps gr ds).1, ∃ n f, op = .write n f := by
  induction ds with
  | nil => simp [docsOps]
  | cons d ds ih =>
    intro op hop
    unfold docsOps at hop
    cases ho : docOps gr d with
    | none => rw [ho] at hop; simp at hop
    | some ops =>
      rw [ho] at hop
      simp only [List.mem_append] at hop
      rcases hop with hop | hop
      · unfold docOps at ho
        simp only at ho
        split at ho
        · split at ho
          · cases ho
          · split at ho
            · cases ho
            · cases ho
              simp only [List.mem_cons, List.not_mem_nil, or_false] at hop
              rcases hop with rfl | rfl <;> exact ⟨_, _, rfl⟩
        · split at ho
          · cases ho
          · cases ho
            simp only [List.mem_cons, List.not_mem_nil, or_false] at hop
            exact ⟨_, _, hop⟩
      · exact ih op hop

/-- The files that `install` writes: those of packages named in the command that are not installed, and the saved graph. -/
theorem install_writes (hE : Fair E) {w : World G B R} (ht : Tidy w.dir) {files : List Text} {op : FOp B R} (h : op ∈ planned E (newPackages E) false w files) :
    (∃ f ∈ files, ∃ d, readDoc E w f = .ok d ∧ w.docOf d.ident = none ∧ (op.name = d.ident ++ dotYml ∨ op.name = d.ident ++ dotXml)) ∨
    op.name = graphXml ∨ op.name = namespacesTxt := by
  unfold planned at h
  simp only [Bool.false_eq_true, if_false] at h
  cases hf : newPackages E w files with
  | error e => rw [hf] at h; simp at h
  | ok fs =>
    rw [hf] at h
    simp only at h
    cases hs : sortFor E w fs (w.installed E) with
    | error e => rw [hs] at h; simp at h
    | ok order =>
      rw [hs] at h
      simp only at h
      cases hp : parseAll E w { graph := w.graph, docs := [], graphs := [] } order with
      | mk P o =>
        rw [hp] at h
        cases o with
        | some e => simp at h
        | none =>
          simp only [List.nil_append, List.mem_append] at h
          obtain ⟨-, hfs⟩ := newPackages_ok hE hf
          obtain ⟨-, ds, b⟩ := batch (w := w) hs hp
          rcases h with h | h
          · obtain ⟨d, hd, hn⟩ := docsOps_names _ _ op h
            rw [b.docs] at hd
            obtain ⟨e, he, rfl⟩ := List.mem_map.1 hd
            obtain ⟨hm, hrd⟩ := b.mem e he
            obtain ⟨h1, h2⟩ := (hfs e.1).1 hm
            refine Or.inl ⟨e.1, h1, e.2, hrd, ?_, hn⟩
            have := h2 e.2 hrd
            rw [mem_installed ht] at this
            cases hc : w.docOf e.2.ident with
            | none => rfl
            | some x => exact absurd ⟨x, hc⟩ this
          · right
            split at h
            · simp only [regOps, List.mem_cons, List.not_mem_nil, or_false] at h
              rcases h with rfl | rfl
              · exact Or.inl rfl
              · exact Or.inr rfl
            · cases h

theorem yml_ne_graph (i : Text) : i ++ dotYml ≠ graphXml := by
  intro h
  have := congrArg (fun t => t.reverse.take 3) h
  simp [dotYml, graphXml] at this

theorem yml_ne_names (i : Text) : i ++ dotYml ≠ namespacesTxt := by
  intro h
  have := congrArg (fun t => t.reverse.take 3) h
  simp [dotYml, namespacesTxt] at this

theorem xml_ne_names (i : Text) : i ++ dotXml ≠ namespacesTxt := by
  intro h
  have := congrArg (fun t => t.reverse.take 3) h
  simp [dotXml, namespacesTxt] at this

/-- **C109, install (part).** Whenever `pico install` is killed, every package that was installed is still installed, with its document and its RDF file unchanged.
(The RDF package of the name `graph`, whose RDF file has the name of the saved graph, is excepted.) -/
theorem install_killed_partial (hE : Fair E) {w : World G B R} (ht : Tidy w.dir) {files : List Text} {dir' : List (Text × File B R)}
    (h : Left (planned E (newPackages E) false w files) w.dir dir') (i : Text) (d : Doc B) (hd : w.docOf i = some d) :
    docIn dir' i = some d ∧ (i ≠ "graph".toList → look dir' (i ++ dotXml) = look w.dir (i ++ dotXml)) := by
  constructor
  · rw [← hd, docOf_eq]
    unfold docIn
    rw [left_untouched h]
    intro op hop hn
    rcases install_writes hE ht hop with ⟨f, _, d', _, hnone, h1 | h1⟩ | h1 | h1
    · rw [app_yml_inj (hn.trans h1)] at hd
      rw [hnone] at hd; cases hd
    · exact xml_ne_yml _ _ (hn.trans h1).symm
    · exact yml_ne_graph _ (hn.trans h1)
    · exact yml_ne_names _ (hn.trans h1)
  · intro hg
    apply left_untouched h
    intro op hop hn
    rcases install_writes hE ht hop with ⟨f, _, d', _, hnone, h1 | h1⟩ | h1 | h1
    · exact xml_ne_yml _ _ (hn.trans h1)
    · rw [app_xml_inj (hn.trans h1)] at hd
      rw [hnone] at hd; cases hd
    · have : i ++ dotXml = "graph".toList ++ dotXml := by rw [hn.trans h1]; rfl
      exact hg (app_xml_inj this)
    · exact xml_ne_names _ (hn.trans h1)

/-- **C109, what a killed install can add.** Every package that is there afterwards was there before, or it was named in the command. -/
theorem install_killed_adds (hE : Fair E) {w : World G B R} (ht : Tidy w.dir) {files : List Text} {dir' : List (Text × File B R)}
    (h : Left (planned E (newPackages E) false w files) w.dir dir') (i : Text) (hi : look dir' (i ++ dotYml) ≠ look w.dir (i ++ dotYml)) :
    ∃ f ∈ files, ∃ d, readDoc E w f = .ok d ∧ d.ident = i ∧ w.docOf i = none := by
  refine Classical.byContradiction fun hno => hi ?_
  apply left_untouched h
  intro op hop hn
  rcases install_writes hE ht hop with ⟨f, hf, d', hrd, hnone, h1 | h1⟩ | h1 | h1
  · have := app_yml_inj (hn.trans h1)
    exact hno ⟨f, hf, d', hrd, this.symm, by rw [this]; exact hnone⟩
  · exact xml_ne_yml _ _ (hn.trans h1).symm
  · exact yml_ne_graph _ (hn.trans h1)
  · exact yml_ne_names _ (hn.trans h1)

/-- **C109, refused commands.** A command that raises before it writes (a package that does not exist, requirements that are not there, a file that cannot be parsed) has no operations: killed or
not, the directory is as before. -/
theorem refused_writes_nothing (filter : World G B R → List Text → Except PyErr (List Text)) (clear : Bool) (w : World G B R) (files : List Text)
    (hp : planned E filter clear w files = []) {dir' : List (Text × File B R)} (h : Left (planned E filter clear w files) w.dir dir') : dir' = w.dir := by
  obtain ⟨k, rfl | ⟨m, f, c, hk, _⟩⟩ := h
  · rw [hp]; simp
  · rw [hp] at hk; simp at hk

/-- **C109 fails for the commands that clear the directory** (`uninstall`, `install --overwrite`): if they get as far as writing, they can be killed when all packages are lost, also
those that should stay. -/
theorem clear_killed_loses (filter : World G B R → List Text → Except PyErr (List Text)) (w : World G B R) (files : List Text)
    (hp : planned E filter true w files ≠ []) : Left (planned E filter true w files) w.dir [] := by
  have hsplit : ∃ rest, planned E filter true w files = w.dir.map (fun e => (FOp.remove e.1 : FOp B R)) ++ rest := by
    unfold planned at hp ⊢
    simp only [if_true] at hp ⊢
    split at hp
    · exact absurd rfl hp
    · split at hp
      · exact absurd rfl hp
      · split at hp
        · exact absurd rfl hp
        · simp only [List.append_assoc]
          exact ⟨_, rfl⟩
  obtain ⟨rest, hr⟩ := hsplit
  refine ⟨w.dir.length, Or.inl ?_⟩
  rw [hr, List.take_append_of_le_length (by simp), List.take_of_length_le (by simp), exec_removeAll]
  symm
  rw [List.filter_eq_nil_iff]
  intro e he
  simp only [decide_not, Bool.not_eq_true', decide_eq_false_iff_not, Classical.not_not]
  exact List.mem_map.2 ⟨e, he, rfl⟩

/-! ### Repeating a command that was killed -/

theorem newLoop_all {w : World G B R} (l : List Text) : ∀ res : List Text, l.Nodup → (∀ f ∈ l, f ∈ res) → (∀ f ∈ l, ∃ i, getIdentifier E w f = .ok i ∧ i ∈ w.installed E) →
    newLoop E w l res = .ok (res.filter (fun x => x ∉ l)) := by
  induction l with
  | nil =>
    intro res _ _ _
    simp only [newLoop]
    rw [List.filter_eq_self.2 (by simp)]
  | cons f l ih =>
    intro res hn hr hi
    rw [List.nodup_cons] at hn
    obtain ⟨i, h1, h2⟩ := hi f (by simp)
    simp only [newLoop, h1, h2, if_true]
    rw [if_pos (hr f (by simp)), ih _ hn.2 (fun x hx => List.mem_filter.2 ⟨hr x (List.mem_cons_of_mem _ hx), by
      simp only [ne_eq, decide_not, Bool.not_eq_true', decide_eq_false_iff_not]
      rintro rfl; exact hn.1 hx⟩) (fun x hx => hi x (List.mem_cons_of_mem _ hx)), List.filter_filter]
    congr 2
    funext x
    rw [← Bool.decide_and]
    apply decide_eq_decide.2
    rw [List.mem_cons, not_or]
    exact and_comm

/-- `install` of files whose packages are all installed skips them: no error, and the graph stays. -/
theorem install_skips (hE : Fair E) (w : World G B R) (files : List Text) (hn : files.Nodup) (hi : ∀ f ∈ files, ∃ i, getIdentifier E w f = .ok i ∧ i ∈ w.installed E) :
    install E w files = ({ w with dir := storeReg E w.graph w.dir, names := w.graph }, none) := by
  have h : newPackages E w files = .ok [] := by
    unfold newPackages
    rw [newLoop_all files _ hn (fun f hf => ((hE.files files).2 f).2 hf) hi]
    congr 1
    rw [List.filter_eq_nil_iff]
    intro x hx
    simpa using ((hE.files files).2 x).1 hx
  unfold install install'
  simp only [Bool.false_eq_true, if_false, h]
  rfl

theorem put_keeps {α : Type} (k : Text) (v : α) (l : List (Text × α)) (n : Text) (hn : ∃ e ∈ l, e.1 = n) : ∃ e ∈ put k v l, e.1 = n := by
  induction l with
  | nil => simp at hn
  | cons a l ih =>
    obtain ⟨e, he, rfl⟩ := hn
    unfold put
    split
    · rename_i hk
      rcases List.mem_cons.1 he with rfl | he
      · exact ⟨(k, v), by simp, hk.symm⟩
      · exact ⟨e, List.mem_cons_of_mem _ he, rfl⟩
    · rcases List.mem_cons.1 he with rfl | he
      · exact ⟨e, by simp, rfl⟩
      · obtain ⟨e', he', h⟩ := ih ⟨e, he, rfl⟩
        exact ⟨e', List.mem_cons_of_mem _ he', h⟩

/-- A file outside the installation directory, named by its path. -/
theorem readDoc_outside (w : World G B R) (f : Text) (hy : endsWith f dotYml = true) (hd : ∀ e ∈ w.dir, join E.path e.1 ≠ f) :
    readDoc E w f = match w.ext f with
      | some (.pkg d) => .ok d
      | some .empty => .error .syntaxError
      | some .noPkg => .error .syntaxError
      | some _ => .error .exception
      | none => .error .fileNotFoundError := by
  unfold readDoc filePath World.read
  rw [if_pos hy, List.find?_eq_none.2 (by simpa using hd)]
  rfl

/-- **C109 fails for a repeated install.** A `pico install` that would have succeeded can be killed so that all its packages count as installed, but the saved graph is the old
one: repeating the command reports success and skips them, and the graph of that and the following processes still is the old one, without the packages. (The
files that are named are yml files outside the installation directory, each is named once, and no package has the name `graph`.) -/
theorem killed_then_skipped (hE : Fair E) (w w' : World G B R) (hw : Good w) (files : List Text) (hn : files.Nodup) (h : install E w files = (w', none))
    (hout : ∀ f ∈ files, endsWith f ".yml".toList = true ∧ ∀ e ∈ w'.dir, join E.path e.1 ≠ f)
    (hg : ∀ f ∈ files, ∀ d, readDoc E w f = .ok d → d.ident ≠ "graph".toList) :
    ∃ dir', Left (planned E (newPackages E) false w files) w.dir dir' ∧
      (∀ f ∈ files, ∀ d, readDoc E w f = .ok d → ∃ d', docIn dir' d.ident = some d') ∧
      ∀ empty, (install E (restart E empty { w with dir := dir' }) files).2 = none ∧
        (install E (restart E empty { w with dir := dir' }) files).1.graph = (restart E empty w).graph := by
  have hwrites : ∀ (ops : List (FOp B R)) (dir : List (Text × File B R)), (∀ op ∈ ops, ∃ n f, op = .write n f) → ∀ n, (∃ e ∈ dir, e.1 = n) →
      ∃ e ∈ ops.foldl FOp.exec dir, e.1 = n := by
    intro ops
    induction ops with
    | nil => exact fun _ _ _ h => h
    | cons op ops ih =>
      intro dir ho n hn
      obtain ⟨m, f, rfl⟩ := ho op (by simp)
      exact ih _ (fun o ho' => ho o (List.mem_cons_of_mem _ ho')) n (put_keeps _ _ _ _ hn)
  obtain ⟨k1, -, -, k4, -⟩ := install_exact E hE w w' files hw h
  have hplan : ∃ ops g, planned E (newPackages E) false w files = ops ++ regOps E g ∧ Tidy (ops.foldl FOp.exec w.dir) ∧ w'.dir = storeReg E g (ops.foldl FOp.exec w.dir) ∧
      (∀ op ∈ ops, op.name ≠ graphXml ∧ op.name ≠ namespacesTxt) ∧ ∀ op ∈ ops, ∃ n f, op = .write n f := by
    rcases install'_cases h with ⟨e, ho, -⟩ | ⟨fs, hf, hcase⟩
    · cases ho
    rcases hcase with ⟨e, ho, -⟩ | ⟨order, hs, hcase⟩
    · cases ho
    rcases hcase with ⟨e, P, ho, -⟩ | ⟨P, hp, dir, hst, hw'⟩
    · cases ho
    simp only [Bool.false_eq_true, if_false] at hs hst
    obtain ⟨-, hfs⟩ := newPackages_ok hE (w := w) hf
    obtain ⟨-, ds, b⟩ := batch (w := w) hs hp
    have hread : Read P.graphs P.docs := b.read (fun f d hd => undotted_readDoc hE hw.tidy hw.undotted f d hd)
    obtain ⟨htidy, -, -⟩ := tidy_stored hread (List.Sublist.refl _) hw.tidy hst
    obtain ⟨e1, e2⟩ := exec_docsOps P.graphs P.docs w.dir
    have hst' : storeDocs P.graphs w.dir P.docs = (dir, none) := hst
    rw [hst'] at e1 e2
    have e2' := e2.1 rfl
    refine ⟨(docsOps P.graphs P.docs).1, P.graph, ?_, by rw [← e1]; exact htidy, ?_, ?_, docsOps_writes _ _⟩
    · have hs' : sortFor E w fs (w.installed E) = .ok order := hs
      have hp' : parseAll E w { graph := w.graph, docs := [], graphs := [] } order = (P, none) := hp
      have hf' : newPackages E w files = .ok fs := hf
      unfold planned
      simp only [Bool.false_eq_true, if_false, hf', hs', hp', List.nil_append, e2', if_true]
    · rw [hw', ← e1]
      rfl
    · intro op hop
      obtain ⟨d, hd, hname⟩ := docsOps_names _ _ op hop
      rw [b.docs] at hd
      obtain ⟨e, he, rfl⟩ := List.mem_map.1 hd
      obtain ⟨hm, hrd⟩ := b.mem e he
      have hne := hg e.1 ((hfs e.1).1 hm).1 e.2 hrd
      rcases hname with h1 | h1 <;> rw [h1]
      · exact ⟨yml_ne_graph _, yml_ne_names _⟩
      · refine ⟨fun h2 => hne (app_xml_inj (h2.trans ?_)), xml_ne_names _⟩
        rfl
  obtain ⟨ops, g, hpl, htidy, hdir, hops, hwr⟩ := hplan
  have hdocs : ∀ i, w'.docOf i = docIn (ops.foldl FOp.exec w.dir) i := by
    intro i
    rw [docOf_eq, hdir, docIn_storeReg]
  refine ⟨ops.foldl FOp.exec w.dir, ⟨ops.length, Or.inl ?_⟩, ?_, ?_⟩
  · rw [hpl, List.take_append_of_le_length (Nat.le_refl _), List.take_length]
  · intro f hf d hd
    obtain ⟨d', hd'⟩ := k4 f hf d hd
    exact ⟨d', by rw [← hdocs]; exact hd'⟩
  · intro empty
    have hlg : look (ops.foldl FOp.exec w.dir) graphXml = look w.dir graphXml := look_execs _ _ _ fun op ho => (hops op ho).1.symm
    have hln : look (ops.foldl FOp.exec w.dir) namespacesTxt = look w.dir namespacesTxt := look_execs _ _ _ fun op ho => (hops op ho).2.symm
    have hr : (restart E empty { w with dir := ops.foldl FOp.exec w.dir }).dir = ops.foldl FOp.exec w.dir ∧
        (restart E empty { w with dir := ops.foldl FOp.exec w.dir }).ext = w.ext := Osp.Pico.restart_dir _
    have hgr : (restart E empty { w with dir := ops.foldl FOp.exec w.dir }).graph = (restart E empty w).graph := by
      unfold restart
      simp only [hlg, hln]
      split <;> rfl
    have hsub : ∀ n, (∃ e ∈ ops.foldl FOp.exec w.dir, e.1 = n) → ∃ e ∈ w'.dir, e.1 = n := by
      intro n hn
      rw [hdir]
      exact put_keeps _ _ _ _ (put_keeps _ _ _ _ hn)
    have hout' : ∀ f ∈ files, ∀ e ∈ ops.foldl FOp.exec w.dir, join E.path e.1 ≠ f := by
      intro f hf e he
      obtain ⟨e', he', h⟩ := hsub e.1 ⟨e, he, rfl⟩
      rw [← h]
      exact (hout f hf).2 e' he'
    have hrd : ∀ f ∈ files, readDoc E (restart E empty { w with dir := ops.foldl FOp.exec w.dir }) f = readDoc E w f := by
      intro f hf
      rw [readDoc_outside _ f (hout f hf).1 (by rw [hr.1]; exact hout' f hf), hr.2]
      rw [readDoc_outside w f (hout f hf).1 ?_]
      intro e he
      have hkeep : ∃ e' ∈ ops.foldl FOp.exec w.dir, e'.1 = e.1 := hwrites ops w.dir hwr e.1 ⟨e, he, rfl⟩
      obtain ⟨e', he', h⟩ := hkeep
      rw [← h]
      exact hout' f hf e' he'
    rw [install_skips hE _ files hn]
    · exact ⟨rfl, hgr⟩
    · intro f hf
      obtain ⟨d, hd⟩ := k1 f hf
      refine ⟨d.ident, getIdentifier_ok.2 ⟨d, by rw [hrd f hf]; exact hd, rfl⟩, ?_⟩
      rw [mem_installed (by rw [hr.1]; exact htidy)]
      obtain ⟨d', hd'⟩ := k4 f hf d hd
      exact ⟨d', by rw [docOf_eq, hr.1, ← hdocs]; exact hd'⟩

end Osp.Killed
