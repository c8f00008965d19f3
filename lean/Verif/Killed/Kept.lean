import Verif.Killed.Clear
/-! The packages that a killed `uninstall` or `install --overwrite` has left are unchanged. -/
namespace Osp.Killed
open Osp.Install

variable {G B R : Type} {E : Env G B R}

/-- Between two operations a file is as before, gone, or one of those that are written. -/
theorem look_three (n : Text) (ops : List (FOp B R)) : ∀ (dir : List (Text × File B R)),
    look (ops.foldl FOp.exec dir) n = look dir n ∨ look (ops.foldl FOp.exec dir) n = none ∨ ∃ f, FOp.write n f ∈ ops ∧ look (ops.foldl FOp.exec dir) n = some f := by
  induction ops with
  | nil => intro dir; exact Or.inl rfl
  | cons op ops ih =>
    intro dir
    rw [List.foldl_cons]
    rcases ih (op.exec dir) with h | h | ⟨f, h1, h2⟩
    · by_cases hn : n = op.name
      · cases op with
        | write m f =>
          simp only [FOp.name] at hn
          subst hn
          refine Or.inr (Or.inr ⟨f, by simp, ?_⟩)
          rw [h]
          simp only [FOp.exec, look_put, if_true]
        | remove m =>
          rcases look_gone n [FOp.remove m] dir (by simp) with h' | h'
          · exact Or.inl (h.trans h')
          · exact Or.inr (Or.inl (h.trans h'))
      · exact Or.inl (h.trans (look_exec _ _ _ hn))
    · exact Or.inr (Or.inl h)
    · exact Or.inr (Or.inr ⟨f, List.mem_cons_of_mem _ h1, h2⟩)

/-- What `Parser.store` writes as the document of a package. -/
theorem docsOps_docs (gr : List (Text × R)) (ds : List (Doc B)) : ∀ (i : Text) (f : File B R), FOp.write (i ++ dotYml) f ∈ (docsOps gr ds).1 →
    ∃ d ∈ ds, d.ident = i ∧ f = .pkg (if d.owl then { d with file := i ++ dotXml } else d) := by
  induction ds with
  | nil => simp [docsOps]
  | cons d ds ih =>
    intro i f hop
    unfold docsOps at hop
    cases ho : docOps gr d with
    | none => rw [ho] at hop; simp at hop
    | some ops =>
      rw [ho] at hop
      simp only [List.mem_append] at hop
      rcases hop with hop | hop
      · refine ⟨d, by simp, ?_⟩
        unfold docOps at ho
        simp only at ho
        split at ho
        · rename_i hw
          split at ho
          · cases ho
          · split at ho
            · cases ho
            · cases ho
              simp only [List.mem_cons, List.not_mem_nil, or_false, FOp.write.injEq] at hop
              rcases hop with ⟨h, -⟩ | ⟨h, rfl⟩
              · exact absurd h.symm (xml_ne_yml _ _)
              · have := app_yml_inj h
                subst this
                exact ⟨rfl, by rw [if_pos hw]⟩
        · rename_i hw
          split at ho
          · cases ho
          · cases ho
            simp only [List.mem_cons, List.not_mem_nil, or_false, FOp.write.injEq] at hop
            obtain ⟨h, rfl⟩ := hop
            exact ⟨(app_yml_inj h).symm, by rw [if_neg hw]⟩
      · obtain ⟨d', hd', h⟩ := ih i f hop
        exact ⟨d', List.mem_cons_of_mem _ hd', h⟩

theorem clear_writes_docs {filter : World G B R → List Text → Except PyErr (List Text)} {w : World G B R} {files : List Text} {i : Text} {f : File B R}
    (h : FOp.write (i ++ dotYml) f ∈ planned E filter true w files) :
    ∃ fs, filter { w with graph := E.cuba, names := E.cuba } files = .ok fs ∧ ∃ p ∈ fs, ∃ d, readDoc E w p = .ok d ∧ d.ident = i ∧
      f = .pkg (if d.owl then { d with file := i ++ dotXml } else d) := by
  unfold planned at h
  simp only [if_true] at h
  cases hf : filter { w with graph := E.cuba, names := E.cuba } files with
  | error e => rw [hf] at h; simp at h
  | ok fs =>
    rw [hf] at h
    simp only at h
    cases hs : sortFor E { w with graph := E.cuba, names := E.cuba } fs [] with
    | error e => rw [hs] at h; simp at h
    | ok order =>
      rw [hs] at h
      simp only at h
      cases hp : parseAll E { w with graph := E.cuba, names := E.cuba } { graph := E.cuba, docs := [], graphs := [] } order with
      | mk P o =>
        rw [hp] at h
        cases o with
        | some e => simp at h
        | none =>
          simp only [List.mem_append] at h
          obtain ⟨-, ds, b⟩ := batch hs hp
          rcases h with (h | h) | h
          · obtain ⟨e, -, he⟩ := List.mem_map.1 h
            cases he
          · obtain ⟨d, hd, hi, hfd⟩ := docsOps_docs _ _ _ _ h
            rw [b.docs] at hd
            obtain ⟨e, he, rfl⟩ := List.mem_map.1 hd
            obtain ⟨hm, hrd⟩ := b.mem e he
            exact ⟨fs, rfl, e.1, hm, e.2, hrd, hi, hfd⟩
          · split at h
            · simp only [regOps, List.mem_cons, List.not_mem_nil, or_false, FOp.write.injEq] at h
              rcases h with ⟨h, -⟩ | ⟨h, -⟩
              · exact absurd h (yml_ne_graph _)
              · exact absurd h (yml_ne_names _)
            · cases h

/-- The stored document of an installed package is that document. -/
theorem stored_same {dir : List (Text × File B R)} (ht : Tidy dir) {i : Text} {d : Doc B} (hd : docIn dir i = some d) :
    (if d.owl then { d with file := i ++ dotXml } else d) = d := by
  split
  · rename_i ho
    obtain ⟨-, hf, -⟩ := (ht.ident hd).2.2.2 ho
    rw [← hf]
  · rfl

/-- **C109, what a killed uninstall leaves (between operations).** Each package is as before or gone, and the packages to be removed do not come back: only installed packages are there, with unchanged documents. -/
theorem uninstall_killed_keeps (hE : Fair E) {w : World G B R} (ht : Tidy w.dir) (args : List Text) (k : Nat) (i : Text) (d : Doc B)
    (h : docIn (((planned E (remaining E) true w args).take k).foldl FOp.exec w.dir) i = some d) : w.docOf i = some d := by
  rw [docOf_eq]
  rcases look_three (i ++ dotYml) ((planned E (remaining E) true w args).take k) w.dir with h' | h' | ⟨f, hf, h'⟩
  · unfold docIn at h ⊢
    rw [h'] at h
    exact h
  · unfold docIn at h
    rw [h'] at h
    cases h
  · obtain ⟨fs, hfs, p, hp, d', hd', hid, rfl⟩ := clear_writes_docs (List.mem_of_mem_take hf)
    obtain ⟨-, hr⟩ := remaining_ok (w := { w with graph := E.cuba, names := E.cuba }) hE ht hfs
    obtain ⟨j, d2, hd2, -, rfl⟩ := (hr p).1 hp
    have hd3 : w.docOf j = some d2 := hd2
    rw [readDoc_installed hE ht hd3] at hd'
    cases hd'
    have : j = i := by rw [← hid]; exact (ht.ident hd3).1.symm
    subst this
    rw [stored_same ht hd3] at h'
    unfold docIn at h
    rw [h'] at h
    cases h
    exact hd3

/-- **C109, what a killed overwriting install leaves (between operations).** Each package that is there is as it was before, or it is one that the command names, and as its file says. -/
theorem overwrite_killed_keeps (hE : Fair E) {w : World G B R} (ht : Tidy w.dir) (files : List Text) (k : Nat) (i : Text) (d : Doc B)
    (h : docIn (((planned E (replaced E) true w files).take k).foldl FOp.exec w.dir) i = some d) :
    w.docOf i = some d ∨ ∃ f ∈ files, ∃ d', readDoc E w f = .ok d' ∧ d'.ident = i ∧ d = if d'.owl then { d' with file := i ++ ".xml".toList } else d' := by
  rw [docOf_eq]
  rcases look_three (i ++ dotYml) ((planned E (replaced E) true w files).take k) w.dir with h' | h' | ⟨f, hf, h'⟩
  · left
    unfold docIn at h ⊢
    rw [h'] at h
    exact h
  · unfold docIn at h
    rw [h'] at h
    cases h
  · obtain ⟨fs, hfs, p, hp, d', hd', hid, rfl⟩ := clear_writes_docs (List.mem_of_mem_take hf)
    obtain ⟨-, hr, -⟩ := replaced_ok (w := { w with graph := E.cuba, names := E.cuba }) hE ht hfs
    unfold docIn at h
    rw [h'] at h
    cases h
    rcases hr p hp with hp | ⟨j, d2, hd2, -, rfl⟩
    · exact Or.inr ⟨p, hp, d', hd', hid, rfl⟩
    · left
      have hd3 : w.docOf j = some d2 := hd2
      rw [readDoc_installed hE ht hd3] at hd'
      cases hd'
      have : j = i := by rw [← hid]; exact (ht.ident hd3).1.symm
      subst this
      rw [stored_same ht hd3]
      exact hd3

open Osp.Install.Ex in
/-- Example: the uninstallation of `parser_test`, killed after five of its seven operations, has left `city`. -/
theorem city_left : (docIn (((planned E0 (remaining E0) true w1 ["parser_test".toList]).take 5).foldl FOp.exec w1.dir) "city".toList).isSome = true := by decide +kernel

open Osp.Install.Ex in
/-- Example: the overwriting installation of `turtle`, killed just before the graph is saved, has installed it. -/
theorem turtle_left : (docIn (((planned E0 (replaced E0) true w1 ["/p/turtle.yml".toList]).take 8).foldl FOp.exec w1.dir) "turtle".toList).isSome = true := by decide +kernel

end Osp.Killed
