import Verif.Killed.Between
/-! A killed `install` can be repaired with `install --overwrite` if no file was torn. -/
namespace Osp.Killed
open Osp.Install

variable {G B R : Type} {E : Env G B R}

/-- Files that no package document lists can be written. -/
theorem tidy_put {dir : List (Text × File B R)} (h : Tidy dir) (n : Text) (v : File B R) (hs : '/' ∉ n) (hy : ∀ i, n ≠ i ++ dotYml)
    (hx : (∃ c, v = .rdf xml c) ∨ ∀ i, n ≠ i ++ dotXml) : Tidy (put n v dir) ∧ ∀ i, docIn (put n v dir) i = docIn dir i := by
  refine ⟨⟨put_nodup _ _ h.names, ?_, ?_⟩, ?_⟩
  · intro m hm
    rw [put_keys] at hm
    split at hm
    · exact h.slash m hm
    · rcases List.mem_append.1 hm with hm | hm
      · exact h.slash m hm
      · rw [List.mem_singleton] at hm
        rw [hm]; exact hs
  · intro m f hf hm
    obtain ⟨u, hu⟩ := (endsWith_iff _ _).1 hm
    rw [look_put, if_neg (fun e => hy u (e.symm.trans hu))] at hf
    obtain ⟨d, h1, h2, h3, h3l, h4⟩ := h.pkgs m f hf hm
    refine ⟨d, h1, h2, h3, h3l, fun ho => ?_⟩
    obtain ⟨a, b, c, r, hr⟩ := h4 ho
    refine ⟨a, b, c, ?_⟩
    rw [look_put]
    split
    · rename_i he
      rcases hx with ⟨c', rfl⟩ | hx
      · exact ⟨c', rfl⟩
      · exact absurd he.symm (hx _)
    · exact ⟨r, hr⟩
  · intro i
    unfold docIn
    rw [look_put, if_neg (fun e => hy i e.symm)]

/-- Where a process can be between two operations of `Parser.store`: all of some documents are written, or of the next one only the RDF file. -/
theorem docs_cut (gr : List (Text × R)) (ds : List (Doc B)) : ∀ (k : Nat) (dir : List (Text × File B R)), ∃ pre post dir1, ds = pre ++ post ∧ storeDocs gr dir pre = (dir1, none) ∧
    (((docsOps gr ds).1.take k).foldl FOp.exec dir = dir1 ∨
      ∃ (d : Doc B) (c : R), '/' ∉ d.ident ∧ ((docsOps gr ds).1.take k).foldl FOp.exec dir = put (d.ident ++ dotXml) (.rdf xml c) dir1) := by
  induction ds with
  | nil => intro k dir; exact ⟨[], [], dir, rfl, rfl, Or.inl (by simp [docsOps])⟩
  | cons d ds ih =>
    intro k dir
    unfold docsOps
    cases ho : docOps gr d with
    | none => exact ⟨[], d :: ds, dir, rfl, rfl, Or.inl (by simp)⟩
    | some ops =>
      simp only
      by_cases hk : ops.length ≤ k
      · obtain ⟨pre, post, dir1, h1, h2, h3⟩ := ih (k - ops.length) (ops.foldl FOp.exec dir)
        refine ⟨d :: pre, post, dir1, by rw [h1]; rfl, ?_, ?_⟩
        · unfold storeDocs
          rw [(exec_docOps gr dir d).1 ops ho]
          exact h2
        · rw [List.take_append, List.take_of_length_le hk, List.foldl_append]
          exact h3
      · refine ⟨[], d :: ds, dir, rfl, rfl, ?_⟩
        rw [List.take_append_of_le_length (by omega)]
        unfold docOps at ho
        simp only at ho
        split at ho
        · split at ho
          · cases ho
          · split at ho
            · cases ho
            · rename_i hs
              cases ho
              simp only [List.length_cons, List.length_nil] at hk
              match k with
              | 0 => exact Or.inl rfl
              | 1 => exact Or.inr ⟨d, _, hs, rfl⟩
              | k + 2 => omega
        · split at ho
          · cases ho
          · cases ho
            simp only [List.length_cons, List.length_nil] at hk
            have : k = 0 := by omega
            subst this
            exact Or.inl rfl

/-- **C109, between operations (part).** A `pico install` that is killed between two operations leaves a directory in order: every yml file is the document of a package and named after it, the installed packages
can be arranged so that each comes after its requirements. -/
theorem killed_good (hE : Fair E) (w : World G B R) (hw : Good w) (files : List Text) (k : Nat) :
    Good { w with dir := ((planned E (newPackages E) false w files).take k).foldl FOp.exec w.dir } := by
  suffices h : Tidy (((planned E (newPackages E) false w files).take k).foldl FOp.exec w.dir) ∧ Closed (((planned E (newPackages E) false w files).take k).foldl FOp.exec w.dir) from
    ⟨h.1, h.2, hw.undotted⟩
  have hnil : ∀ k, Tidy ((([] : List (FOp B R)).take k).foldl FOp.exec w.dir) ∧ Closed ((([] : List (FOp B R)).take k).foldl FOp.exec w.dir) := by
    intro k
    simp only [List.take_nil, List.foldl_nil]
    exact ⟨hw.tidy, hw.closed⟩
  unfold planned
  simp only [Bool.false_eq_true, if_false, List.nil_append]
  cases hf : newPackages E w files with
  | error e => exact hnil k
  | ok fs =>
    simp only
    cases hs : sortFor E w fs (w.installed E) with
    | error e => exact hnil k
    | ok order =>
      simp only
      cases hp : parseAll E w { graph := w.graph, docs := [], graphs := [] } order with
      | mk P o =>
        cases o with
        | some e => exact hnil k
        | none =>
          simp only
          obtain ⟨-, hfs⟩ := newPackages_ok hE hf
          obtain ⟨-, ds, b⟩ := batch (w := w) hs hp
          have hread : Read P.graphs P.docs := b.read (fun f d hd => undotted_readDoc hE hw.tidy hw.undotted f d hd)
          have hfresh : ∀ d ∈ P.docs, docIn w.dir d.ident = none := by
            intro d hd
            rw [b.docs] at hd
            obtain ⟨e, he, rfl⟩ := List.mem_map.1 hd
            obtain ⟨hm, hrd⟩ := b.mem e he
            have := ((hfs e.1).1 hm).2 e.2 hrd
            rw [mem_installed hw.tidy] at this
            cases hc : w.docOf e.2.ident with
            | none => exact hc
            | some x => exact absurd ⟨x, hc⟩ this
          have harr : Arranged (w.installed E) P.docs := by rw [b.docs]; exact b.arranged
          have hinst : ∀ r ∈ w.installed E, ∃ d, docIn w.dir r = some d := fun r hr => (mem_installed hw.tidy).1 hr
          have hput : ∀ (dir : List (Text × File B R)) n v, Tidy dir ∧ Closed dir → '/' ∉ n → (∀ i, n ≠ i ++ dotYml) → ((∃ c, v = .rdf xml c) ∨ ∀ i, n ≠ i ++ dotXml) →
              Tidy (put n v dir) ∧ Closed (put n v dir) := by
            rintro dir n v ⟨h1, docs, h2, h3⟩ hs hy hx
            obtain ⟨h4, h5⟩ := tidy_put h1 n v hs hy hx
            exact ⟨h4, docs, fun d => by rw [h2]; simp only [h5], h3⟩
          have hdocs : ∀ k, Tidy (((docsOps P.graphs P.docs).1.take k).foldl FOp.exec w.dir) ∧ Closed (((docsOps P.graphs P.docs).1.take k).foldl FOp.exec w.dir) := by
            intro k
            obtain ⟨pre, post, dir1, h1, h2, h3⟩ := docs_cut P.graphs P.docs k w.dir
            have hsub : pre.Sublist P.docs := by rw [h1]; exact List.sublist_append_left _ _
            obtain ⟨t1, -, -⟩ := tidy_stored hread hsub hw.tidy h2
            have t2 := closed_stored hread hsub hw.tidy h2 hw.closed (by rw [h1] at harr; exact arranged_prefix harr) hinst (fun d hd => hfresh d (hsub.subset hd))
            rcases h3 with h3 | ⟨d, c, hd, h3⟩
            · rw [h3]; exact ⟨t1, t2⟩
            · rw [h3]
              refine hput _ _ _ ⟨t1, t2⟩ ?_ (fun i e => xml_ne_yml _ _ e) (Or.inl ⟨c, rfl⟩)
              intro hm
              rcases List.mem_append.1 hm with hm | hm
              · exact hd hm
              · revert hm; decide
          rw [List.take_append, List.foldl_append]
          have h := hdocs k
          generalize (k - (docsOps P.graphs P.docs).1.length) = m
          generalize ((List.take k (docsOps P.graphs P.docs).1).foldl FOp.exec w.dir) = dir at h
          split
          · have h1 := hput dir graphXml (.rdf xml (E.dump P.graph)) h (by decide) (fun i e => yml_ne_graph i e.symm) (Or.inl ⟨_, rfl⟩)
            match m with
            | 0 => exact h
            | 1 => exact h1
            | m + 2 =>
              simp only [regOps, List.take_succ_cons, List.take_nil, List.foldl_cons, List.foldl_nil, FOp.exec]
              exact hput _ namespacesTxt (.names (E.dump P.graph)) h1 (by decide) (fun i e => yml_ne_names i e.symm) (Or.inr fun i e => xml_ne_names i e.symm)
          · simpa using h

/-- **C109, repair (part).** A `pico install` that was killed between two operations can be completed with `install --overwrite` of the same files: if that is not refused, exactly the named packages and those installed before
are installed, the named ones as their files say, the others as before, and the graph is built from all of them. -/
theorem killed_repaired_partial (hE : Fair E) (w : World G B R) (hw : Good w) (files : List Text) (k : Nat) (w2 w3 : World G B R) (hext : w2.ext = w.ext)
    (hdir : w2.dir = ((planned E (newPackages E) false w files).take k).foldl FOp.exec w.dir)
    (hsame : ∀ f ∈ files, readDoc E w2 f = readDoc E w f) (h : overwrite E w2 files = (w3, none)) :
    (∀ i, (∀ f ∈ files, getIdentifier E w f ≠ .ok i) → w3.docOf i = w.docOf i) ∧
    (∀ i, (∃ f ∈ files, getIdentifier E w f = .ok i) → ∃ d, w3.docOf i = some d ∧ ∃ f ∈ files, ∃ d', readDoc E w f = .ok d' ∧ d'.ident = i ∧ d.Same d') ∧
    (∃ order docs, Loads E w2 E.cuba order w3.graph ∧ order.map (readDoc E w2) = docs.map .ok ∧ (docs.map Doc.ident).Nodup ∧ (∀ i, i ∈ docs.map Doc.ident ↔ ∃ d, w3.docOf i = some d) ∧
      Arranged [] docs) ∧
    look w3.dir graphXml = some (.rdf xml (E.dump w3.graph)) := by
  have hg := killed_good hE w hw files k
  have hg2 : Good w2 := ⟨by rw [hdir]; exact hg.tidy, by rw [hdir]; exact hg.closed, fun t d ht => hw.undotted t d (by rw [← hext]; exact ht)⟩
  obtain ⟨-, h2, h3, h4, -, h5⟩ := overwrite_exact E hE w2 w3 files hg2 h
  have hid : ∀ f ∈ files, ∀ i, getIdentifier E w2 f = .ok i ↔ getIdentifier E w f = .ok i := by
    intro f hf i
    rw [getIdentifier_ok, getIdentifier_ok, hsame f hf]
  refine ⟨fun i hi => ?_, fun i hi => ?_, h4, h5⟩
  · rw [h2 i fun f hf e => hi f hf ((hid f hf i).1 e), docOf_eq, docOf_eq, hdir]
    have hleft : Left (planned E (newPackages E) false w files) w.dir (((planned E (newPackages E) false w files).take k).foldl FOp.exec w.dir) := ⟨k, Or.inl rfl⟩
    unfold docIn
    by_cases he : look (((planned E (newPackages E) false w files).take k).foldl FOp.exec w.dir) (i ++ dotYml) = look w.dir (i ++ dotYml)
    · rw [he]
    · obtain ⟨f, hf, d, hd, hdi, -⟩ := install_killed_adds hE hw.tidy hleft i he
      exact absurd (getIdentifier_ok.2 ⟨d, hd, hdi⟩) (hi f hf)
  · obtain ⟨f, hf, hfi⟩ := hi
    obtain ⟨d, hd, f', hf', d', hd', rest⟩ := h3 i ⟨f, hf, (hid f hf i).2 hfi⟩
    exact ⟨d, hd, f', hf', d', by rw [← hsame f' hf']; exact hd', rest⟩

open Osp.Install.Ex in
/-- Example: `turtle`, killed after two operations, is completed by `install --overwrite`; the conditions of `killed_repaired_partial` hold (`readDoc` of the file does not depend on the directory). -/
theorem turtle_repaired : let w2 : World (List Nat) Nat (List Nat) := restart E0 [] { w1 with dir := turtle 2 }
    (overwrite E0 w2 ["/p/turtle.yml".toList]).2 = none ∧ (overwrite E0 w2 ["/p/turtle.yml".toList]).1.graph.length = 4 ∧ 3 ∈ (overwrite E0 w2 ["/p/turtle.yml".toList]).1.graph ∧
    (readDoc E0 w2 "/p/turtle.yml".toList).toOption = (readDoc E0 w1 "/p/turtle.yml".toList).toOption ∧ w2.ext "/p/turtle.yml".toList = w1.ext "/p/turtle.yml".toList := by
  refine ⟨by decide +kernel, by decide +kernel, by decide +kernel, by decide +kernel, by decide +kernel⟩

end Osp.Killed
