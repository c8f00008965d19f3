import Verif.Install.Ops
/-!
# C34, C35: findings, and concrete installations
-/
namespace Osp.Install
variable {G B R : Type}

/-! ### findings that hold for every installation -/

/-- Finding: a refused `uninstall` (unknown package) has already emptied the registry. -/
theorem refused_uninstall_empties_registry (E : Env G B R) (hE : Fair E) (w : World G B R) (args : List Text) (hw : Good w) (hread : ∀ a ∈ args, ∃ i, meant E w a = .ok i)
    (h : ∃ a ∈ args, ∃ i, meant E w a = .ok i ∧ w.docOf i = none) : (uninstall E w args).2 = some .valueError ∧ (uninstall E w args).1.dir = w.dir ∧ (uninstall E w args).1.graph = E.cuba := by
  rw [uninstall_unknown_raises E hE w args hw hread h]
  exact ⟨rfl, rfl, rfl⟩

/-- Reading a list of files passes by each of them. -/
theorem loads_mem {E : Env G B R} {w : World G B R} {g g' : G} {l : List Text} (h : Loads E w g l g') {f : Text} {d : Doc B} (hf : f ∈ l) (hd : readDoc E w f = .ok d) (ho : d.owl = true) :
    d.reqs = .absent ∧ ∃ fmt c, w.read E (rdfPath (filePath E w f) d) = some (.rdf fmt c) ∧ fmt = d.format.getD xml := by
  induction h with
  | nil => cases hf
  | yml hd' ho' _ _ ih =>
    rcases List.mem_cons.1 hf with rfl | hf
    · rw [hd] at hd'; cases hd'; rw [ho] at ho'; cases ho'
    · exact ih hf
  | rdf hd' _ hr _ hread hfmt _ _ ih =>
    rcases List.mem_cons.1 hf with rfl | hf
    · rw [hd] at hd'; cases hd'; exact ⟨hr, _, _, hread, hfmt⟩
    · exact ih hf

/-- Finding: once an RDF package in a format other than RDF/XML is installed, no `uninstall` that keeps it can succeed: its graph was saved as RDF/XML but is read back in the old format. -/
theorem other_format_blocks_uninstall (E : Env G B R) (hE : Fair E) (w : World G B R) (args : List Text) (hw : Good w) (i : Text) (d : Doc B) (hd : w.docOf i = some d) (ho : d.owl = true)
    (hf : d.format.getD xml ≠ xml) (hkeep : ∀ a ∈ args, meant E w a ≠ .ok i) (w' : World G B R) : uninstall E w args ≠ (w', none) := by
  intro h
  obtain ⟨-, -, h3, ⟨docs, hl, -, hall, -⟩, -⟩ := uninstall_exact E hE w w' args hw h
  have hdm : d ∈ docs := (hall d).2 ⟨i, by rw [h3 i hkeep]; exact hd⟩
  have hid := (hw.tidy.ident hd).1
  obtain ⟨-, fmt, c, hr, hfmt⟩ := loads_mem hl (List.mem_map.2 ⟨d, hdm, rfl⟩) (by rw [hid]; exact readDoc_installed hE hw.tidy hd) ho
  obtain ⟨c', -, hr'⟩ := read_rdf_installed hE hw.tidy hd ho
  rw [hid, hr'] at hr
  cases hr
  exact hf hfmt.symm

/-- Finding: an RDF package that states requirements is never installed. -/
theorem rdf_with_requirements_not_installable (E : Env G B R) (hE : Fair E) (w w' : World G B R) (f : Text) (d : Doc B) (hw : Good w) (hd : readDoc E w f = .ok d) (ho : d.owl = true) (hr : d.reqs ≠ .absent)
    (hn : w.docOf d.ident = none) : install E w [f] ≠ (w', none) := by
  intro h
  obtain ⟨-, -, -, -, ⟨order, docs, hl, hm, -, hall, -⟩, -⟩ := install_exact E hE w w' [f] hw h
  obtain ⟨x, hx, hxi⟩ := List.mem_map.1 ((hall d.ident).2 ⟨hn, f, by simp, d, hd, rfl⟩)
  have : (.ok x : Except PyErr (Doc B)) ∈ order.map (readDoc E w) := by rw [hm]; exact List.mem_map.2 ⟨x, hx, rfl⟩
  obtain ⟨g, hg, hgx⟩ := List.mem_map.1 this
  -- the only file taken is `f`
  rcases install'_cases h with ⟨e, ho, -⟩ | ⟨fs, hf, hcase⟩
  · cases ho
  rcases hcase with ⟨e, ho, -⟩ | ⟨order', hs, hcase⟩
  · cases ho
  rcases hcase with ⟨e, P, ho, -⟩ | ⟨P, hp, -⟩
  · cases ho
  obtain ⟨-, ds, b⟩ := batch (w := w) hs hp
  obtain ⟨-, hfs⟩ := newPackages_ok hE (w := w) hf
  have hin : f ∈ fs := (hfs f).2 ⟨by simp, fun d' hd' => by
    rw [hd] at hd'; cases hd'
    intro hi
    obtain ⟨y, hy⟩ := (mem_installed hw.tidy).1 hi
    rw [hn] at hy; cases hy⟩
  obtain ⟨d', hd', hi⟩ := b.all f hin
  obtain ⟨e, he, -⟩ := List.mem_map.1 hi
  have hef : e.1 = f := by
    have := ((hfs e.1).1 (b.mem e he).1).1
    simpa using this
  have hed : e.2 = d := by
    have := (b.mem e he).2
    rw [hef] at this
    exact Except.ok.inj ((show readDoc E w f = .ok e.2 from this).symm.trans hd)
  exact hr (hed ▸ (b.rdf e he (by rw [hed]; exact ho)).1)

theorem newLoop_error {E : Env G B R} {w : World G B R} : ∀ (l res : List Text) (e : PyErr), (∀ f ∈ l, ∃ i, getIdentifier E w f = .ok i) → newLoop E w l res = .error e → e = .keyError := by
  intro l
  induction l with
  | nil => intro res e _ h; cases h
  | cons f l ih =>
    intro res e hr h
    obtain ⟨i, hi⟩ := hr f List.mem_cons_self
    simp only [newLoop, hi] at h
    split at h
    · split at h
      · exact ih _ e (fun g hg => hr g (List.mem_cons_of_mem _ hg)) h
      · cases h; rfl
    · exact ih _ e (fun g hg => hr g (List.mem_cons_of_mem _ hg)) h

theorem newLoop_once {E : Env G B R} {w : World G B R} {f i : Text} (hi : getIdentifier E w f = .ok i) (hm : i ∈ w.installed E) : ∀ (l res fs : List Text), newLoop E w l res = .ok fs →
    (f ∉ res → f ∉ l) ∧ ¬ ∃ a b, l = a ++ f :: b ∧ f ∈ b := by
  intro l
  induction l with
  | nil => intro res fs _; exact ⟨fun _ => by simp, by rintro ⟨a, b, h, -⟩; cases a <;> cases h⟩
  | cons g l ih =>
    intro res fs h
    simp only [newLoop] at h
    cases hg : getIdentifier E w g with
    | error e => rw [hg] at h; cases h
    | ok j =>
      rw [hg] at h
      simp only at h
      by_cases hgf : g = f
      · subst hgf
        rw [hi] at hg
        cases hg
        simp only [hm, if_true] at h
        split at h
        · rename_i hres
          obtain ⟨h1, h2⟩ := ih _ _ h
          have hnot : g ∉ l := h1 (by simp)
          refine ⟨fun hn => absurd hres hn, ?_⟩
          rintro ⟨a, b, he, hb⟩
          cases a with
          | nil => simp only [List.nil_append, List.cons.injEq, true_and] at he; subst he; exact hnot hb
          | cons x a => simp only [List.cons_append, List.cons.injEq] at he; exact hnot (by rw [he.2]; simp)
        · cases h
      · have key : ∀ res', newLoop E w l res' = .ok fs → (f ∉ res → f ∉ res') → (f ∉ res → f ∉ g :: l) ∧ ¬ ∃ a b, g :: l = a ++ f :: b ∧ f ∈ b := by
          intro res' h' himp
          obtain ⟨h1, h2⟩ := ih _ _ h'
          refine ⟨fun hn hmem => ?_, ?_⟩
          · rcases List.mem_cons.1 hmem with h3 | h3
            · exact hgf h3.symm
            · exact h1 (himp hn) h3
          · rintro ⟨a, b, he, hb⟩
            cases a with
            | nil => simp only [List.nil_append, List.cons.injEq] at he; exact hgf he.1
            | cons x a => simp only [List.cons_append, List.cons.injEq] at he; exact h2 ⟨a, b, he.2, hb⟩
        split at h
        · split at h
          · exact key _ h (fun hn hmem => hn (List.mem_filter.1 hmem).1)
          · cases h
        · exact key _ h (fun hn => hn)

/-- Finding: naming the file of an already installed package twice makes `install` fail with KeyError instead of skipping it. -/
theorem installed_twice_named_keyError (E : Env G B R) (w : World G B R) (files : List Text) (f i : Text) (hread : ∀ g ∈ files, ∃ j, getIdentifier E w g = .ok j) (hi : getIdentifier E w f = .ok i)
    (hm : i ∈ w.installed E) (htwice : ∃ a b, files = a ++ f :: b ∧ f ∈ b) : install E w files = (w, some .keyError) := by
  have : newPackages E w files = .error .keyError := by
    cases h : newPackages E w files with
    | error e => rw [newLoop_error _ _ e hread h]
    | ok fs => exact absurd htwice (newLoop_once hi hm _ _ _ h).2
  exact install'_filter_fails (clear := false) (w := w) this

/-! ### concrete installations -/

namespace Ex

abbrev W := World (List Nat) Nat (List Nat)

def once {α : Type} [DecidableEq α] : List α → List α
  | [] => []
  | x :: l => if x ∈ once l then once l else x :: once l

/-- A parser that appends numbers; sets are enumerated in the order of the first occurrences. -/
def E0 : Env (List Nat) Nat (List Nat) :=
  { path := "/ont".toList, docs := "/docs".toList, cuba := [0], yml := fun g d => (g ++ [d.body], none), rdf := fun g _ c => (g ++ c, none), dump := id, load := id,
    enumF := fun l => once l, enumP := fun l => once l }

def doc (owl : Bool) (name : String) (reqs : Reqs) (file : String) (format : Option Text) (body : Nat) : Doc Nat := ⟨owl, name.toList, reqs, file.toList, format, body⟩

/-- The packages outside: `city`, `parser_test` that requires it, a Turtle package, one with a capital letter, a package named like the saved graph, and packages requiring `CITY` and `cuba`. -/
def files : Text → Option (File Nat (List Nat)) := fun t =>
  (look [("/p/city.yml".toList, .pkg (doc false "CITY" .absent "" none 1)),
   ("/p/test.yml".toList, .pkg (doc false "parser_test" (.list ["city".toList]) "" none 2)),
   ("/p/turtle.yml".toList, .pkg (doc true "turtle" .absent "t.ttl" (some "ttl".toList) 0)),
   ("/p/t.ttl".toList, .rdf "ttl".toList [3]),
   ("/p/capital.yml".toList, .pkg (doc true "Capital" .absent "c.xml" none 0)),
   ("/p/c.xml".toList, .rdf xml [4]),
   ("/p/graph.yml".toList, .pkg (doc true "graph" .absent "c.xml" none 0)),
   ("/p/upper.yml".toList, .pkg (doc false "upper" (.list ["CITY".toList]) "" none 5)),
   ("/p/core.yml".toList, .pkg (doc false "core" (.list ["cuba".toList]) "" none 6))] t : Option (File Nat (List Nat)))

def w0 : W := { dir := [], ext := files, graph := [0], names := [0] }

/-- `pico install /p/test.yml /p/city.yml`. -/
def w1 : W := (install E0 w0 ["/p/test.yml".toList, "/p/city.yml".toList]).1

theorem once_fair {α : Type} [DecidableEq α] (l : List α) : (once l).Nodup ∧ ∀ x, x ∈ once l ↔ x ∈ l := by
  induction l with
  | nil => simp [once]
  | cons a l ih =>
    simp only [once]
    split
    · rename_i h
      refine ⟨ih.1, fun x => ?_⟩
      rw [ih.2, List.mem_cons]
      constructor
      · exact Or.inr
      · rintro (rfl | hx)
        · exact (ih.2 x).1 h
        · exact hx
    · rename_i h
      refine ⟨List.nodup_cons.2 ⟨h, ih.1⟩, fun x => ?_⟩
      rw [List.mem_cons, List.mem_cons, ih.2]

theorem fair0 : Fair E0 := ⟨by decide, fun l => once_fair l, fun l => once_fair l⟩

theorem lookup_pkg {l : List (Text × File Nat (List Nat))} (h : ∀ e ∈ l, ∀ d, e.2 = .pkg d → '.' ∉ d.ident) (t : Text) (d : Doc Nat) (hd : look l t = some (.pkg d)) : '.' ∉ d.ident :=
  h _ (look_mem hd) d rfl

theorem good0 : Good w0 := by
  refine ⟨tidy_nil, closed_nil, ?_⟩
  intro t d h
  refine lookup_pkg ?_ t d h
  intro e he d hd
  simp only [List.mem_cons, List.not_mem_nil, or_false] at he
  rcases he with rfl | rfl | rfl | rfl | rfl | rfl | rfl | rfl | rfl <;> first | (cases hd; done) | (cases hd; decide)

theorem good1 : Good w1 := good_history E0 fair0 w0 good0 [.install ["/p/test.yml".toList, "/p/city.yml".toList]]

/-- The city comes before the package that requires it, although it was named last; both are installed, read once, and saved. -/
example : (install E0 w0 ["/p/test.yml".toList, "/p/city.yml".toList]).2 = none ∧ w1.installed E0 = ["city".toList, "parser_test".toList] ∧ w1.graph = [0, 1, 2] ∧ (restart E0 [] w1).graph = [0, 1, 2] ∧
    w1.Requires "parser_test".toList "city".toList := by
  refine ⟨by decide +kernel, by decide +kernel, by decide +kernel, by decide +kernel, ⟨_, rfl, _, rfl, by decide⟩⟩

/-- Uninstalling the package that requires the city leaves the city (`uninstall_exact` applies); uninstalling the city alone is refused (`uninstall_needed_raises` applies). -/
example : (uninstall E0 w1 ["parser_test".toList]).2 = none ∧ (uninstall E0 w1 ["parser_test".toList]).1.installed E0 = ["city".toList] ∧ (uninstall E0 w1 ["parser_test".toList]).1.graph = [0, 1] ∧
    (uninstall E0 w1 ["city".toList]).2 = some .runtimeError ∧ (uninstall E0 w1 ["/p/city.yml".toList, "parser_test".toList]).1.installed E0 = [] := by decide +kernel

example : (install E0 w0 ["/p/test.yml".toList]).2 = some .runtimeError ∧ (overwrite E0 w1 ["/p/test.yml".toList]).2 = none ∧ (overwrite E0 w1 ["/p/test.yml".toList]).1.installed E0 = ["city".toList, "parser_test".toList] := by
  decide +kernel

/-- Finding: after a refused `uninstall`, installing another package saves a graph without the packages installed before, which are still listed as installed. -/
theorem refused_uninstall_loses_packages : let w2 := (uninstall E0 w1 ["nonsense".toList]).1
    let w3 := (install E0 w2 ["/p/turtle.yml".toList]).1
    (uninstall E0 w1 ["nonsense".toList]).2 = some .valueError ∧ (install E0 w2 ["/p/turtle.yml".toList]).2 = none ∧
    w3.installed E0 = ["city".toList, "parser_test".toList, "turtle".toList] ∧ (restart E0 [] w3).graph = [0, 3] := by
  decide +kernel

/-- Finding: with a Turtle package installed, uninstalling another package fails (`other_format_blocks_uninstall`). -/
theorem turtle_blocks : let w2 := (install E0 w1 ["/p/turtle.yml".toList]).1
    (install E0 w1 ["/p/turtle.yml".toList]).2 = none ∧ (uninstall E0 w2 ["parser_test".toList]).2 = some .exception ∧ (uninstall E0 w2 ["turtle".toList]).2 = none := by
  decide +kernel

/-- Finding: replacing packages with an RDF package whose identifier has a capital letter fails after the directory was wiped: packages to be written later
are lost, and so is the saved graph: the next start finds only CUBA. -/
theorem capital_wipes_graph : let w2 := (overwrite E0 w1 ["/p/capital.yml".toList]).1
    (overwrite E0 w1 ["/p/capital.yml".toList]).2 = some .keyError ∧ w2.installed E0 = ["city".toList] ∧ w1.installed E0 = ["city".toList, "parser_test".toList] ∧ (restart E0 [] w2).graph = [0] ∧ (restart E0 [] w1).graph = [0, 1, 2] := by
  decide +kernel

/-- Finding: requirements are compared with the lower case identifiers as they are written, and CUBA does not count as installed: these packages cannot be installed. -/
theorem requirement_spelling : (install E0 w1 ["/p/upper.yml".toList]).2 = some .runtimeError ∧ (install E0 w1 ["/p/core.yml".toList]).2 = some .runtimeError := by
  decide +kernel

/-- Finding: the RDF file of a package named `graph` is overwritten by the saved graph of everything, so that uninstalled packages come back. -/
theorem package_named_graph : let w2 := (install E0 w1 ["/p/graph.yml".toList]).1
    let w3 := (uninstall E0 w2 ["parser_test".toList, "city".toList]).1
    (install E0 w1 ["/p/graph.yml".toList]).2 = none ∧ (uninstall E0 w2 ["parser_test".toList, "city".toList]).2 = none ∧ w3.installed E0 = ["graph".toList] ∧ w3.graph = [0, 0, 1, 2, 4] := by
  decide +kernel

/-- Finding: a YAML ontology whose namespace has a dot (which the format check accepts, `Verif/Yaml`) is listed under the part before the dot. -/
theorem dotted_namespace : let w : W := { w0 with ext := fun t => if t = "/p/dotted.yml".toList then some (.pkg (doc false "a.b" .absent "" none 7)) else none }
    let w2 := (install E0 w ["/p/dotted.yml".toList]).1
    w2.installed E0 = ["a".toList] ∧ (uninstall E0 w2 ["a.b".toList]).2 = some .valueError ∧ (uninstall E0 w2 ["/p/dotted.yml".toList]).2 = some .valueError ∧
    (install E0 w2 ["/p/dotted.yml".toList]).1.graph = [0, 7, 7] := by
  decide +kernel

/-- Naming the file of an installed package twice. -/
example : (install E0 w1 ["/p/city.yml".toList, "/p/city.yml".toList]).2 = some .keyError ∧ (install E0 w1 ["/p/city.yml".toList]).2 = none := by decide +kernel

end Ex
end Osp.Install
