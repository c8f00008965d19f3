import Verif.Killed.Repair
/-! What a killed `uninstall` or `install --overwrite` cannot do: bring back a package that it removes, or leave one that was neither installed nor named. -/
namespace Osp.Killed
open Osp.Install

variable {G B R : Type} {E : Env G B R}

/-- A file that is never written is as before, or gone. -/
theorem look_gone (n : Text) (ops : List (FOp B R)) : ∀ (dir : List (Text × File B R)), (∀ f, FOp.write n f ∉ ops) →
    look (ops.foldl FOp.exec dir) n = look dir n ∨ look (ops.foldl FOp.exec dir) n = none := by
  induction ops with
  | nil => intro dir _; exact Or.inl rfl
  | cons op ops ih =>
    intro dir h
    rw [List.foldl_cons]
    have hrest : ∀ f, FOp.write n f ∉ ops := fun f hf => h f (List.mem_cons_of_mem _ hf)
    have hop : look (op.exec dir) n = look dir n ∨ look (op.exec dir) n = none := by
      by_cases hn : n = op.name
      · cases op with
        | write m f => exact absurd (by rw [hn]; simp [FOp.name]) (h f)
        | remove m =>
          right
          simp only [FOp.name] at hn
          subst hn
          simp only [FOp.exec, look]
          rw [List.find?_eq_none.2]
          · rfl
          · intro e he
            have := (List.mem_filter.1 he).2
            simpa using this
      · exact Or.inl (look_exec _ _ _ hn)
    rcases ih (op.exec dir) hrest with h1 | h1
    · rw [h1]; exact hop
    · exact Or.inr h1

theorem left_gone {ops : List (FOp B R)} {dir dir' : List (Text × File B R)} (h : Left ops dir dir') (n : Text) (hn : ∀ f, FOp.write n f ∉ ops) :
    look dir' n = look dir n ∨ look dir' n = none := by
  obtain ⟨k, rfl | ⟨m, f, c, hk, rfl⟩⟩ := h
  · exact look_gone n _ _ fun f hf => hn f (List.mem_of_mem_take hf)
  · have hne : ¬ n = m := by
      rintro rfl
      exact hn f (List.mem_of_getElem? hk)
    rw [look_put, if_neg hne]
    exact look_gone n _ _ fun f hf => hn f (List.mem_of_mem_take hf)

/-- The documents that a command with an emptied directory writes are those of the files that its filter chose. -/
theorem clear_writes {filter : World G B R → List Text → Except PyErr (List Text)} {w : World G B R} {files : List Text} {i : Text} {f : File B R}
    (h : FOp.write (i ++ dotYml) f ∈ planned E filter true w files) :
    ∃ fs, filter { w with graph := E.cuba, names := E.cuba } files = .ok fs ∧ ∃ p ∈ fs, ∃ d, readDoc E w p = .ok d ∧ d.ident = i := by
  unfold planned at h
  simp only [if_true] at h
  cases hf : filter { w with graph := E.cuba, names := E.cuba } files with
  | error e => rw [hf] at h; simp at h
  | ok fs =>
    rw [hf] at h
    simp only at h
    cases hs : sortFor E { w with graph := E.cuba, names := E.cuba } fs [] with
    | error e => rw [hs] at h; simp at h
    | ok order =>
      rw [hs] at h
      simp only at h
      cases hp : parseAll E { w with graph := E.cuba, names := E.cuba } { graph := E.cuba, docs := [], graphs := [] } order with
      | mk P o =>
        rw [hp] at h
        cases o with
        | some e => simp at h
        | none =>
          simp only [List.mem_append] at h
          obtain ⟨-, ds, b⟩ := batch hs hp
          rcases h with (h | h) | h
          · obtain ⟨e, -, he⟩ := List.mem_map.1 h
            cases he
          · obtain ⟨d, hd, hn⟩ := docsOps_names _ _ _ h
            rw [b.docs] at hd
            obtain ⟨e, he, rfl⟩ := List.mem_map.1 hd
            obtain ⟨hm, hrd⟩ := b.mem e he
            refine ⟨fs, rfl, e.1, hm, e.2, hrd, ?_⟩
            rcases hn with hn | hn
            · exact (app_yml_inj hn).symm
            · exact absurd hn.symm (xml_ne_yml _ _)
          · split at h
            · simp only [regOps, List.mem_cons, List.not_mem_nil, or_false, FOp.write.injEq] at h
              rcases h with ⟨h, -⟩ | ⟨h, -⟩
              · exact absurd h (yml_ne_graph _)
              · exact absurd h (yml_ne_names _)
            · cases h

/-- **C109, uninstall.** Whenever `pico uninstall` is killed, the document of a package that it was to remove is as before or gone, and no package is there that was not. -/
theorem uninstall_killed_removes (hE : Fair E) {w : World G B R} (ht : Tidy w.dir) {args : List Text} {dir' : List (Text × File B R)}
    (h : Left (planned E (remaining E) true w args) w.dir dir') (i : Text) (hi : (∃ a ∈ args, meant E w a = .ok i) ∨ w.docOf i = none) :
    look dir' (i ++ dotYml) = look w.dir (i ++ dotYml) ∨ look dir' (i ++ dotYml) = none := by
  apply left_gone h
  intro f hf
  obtain ⟨fs, hfs, p, hp, d, hd, hid⟩ := clear_writes hf
  obtain ⟨-, hr⟩ := remaining_ok (w := { w with graph := E.cuba, names := E.cuba }) hE ht hfs
  obtain ⟨j, d', hd', hno, rfl⟩ := (hr p).1 hp
  have hd'' : w.docOf j = some d' := hd'
  rw [readDoc_installed hE ht hd''] at hd
  cases hd
  have : j = i := by rw [← hid]; exact (ht.ident hd'').1.symm
  subst this
  rcases hi with ⟨a, ha, hm⟩ | hi
  · exact hno a ha hm
  · rw [hd''] at hi; cases hi

/-- **C109, overwrite.** Whenever `pico install --overwrite` is killed, no package is there that was neither installed nor named in the command. -/
theorem overwrite_killed_adds (hE : Fair E) {w : World G B R} (ht : Tidy w.dir) {files : List Text} {dir' : List (Text × File B R)}
    (h : Left (planned E (replaced E) true w files) w.dir dir') (i : Text) (hno : w.docOf i = none) (hi : ∀ f ∈ files, getIdentifier E w f ≠ .ok i) :
    look dir' (i ++ dotYml) = look w.dir (i ++ dotYml) ∨ look dir' (i ++ dotYml) = none := by
  apply left_gone h
  intro f hf
  obtain ⟨fs, hfs, p, hp, d, hd, hid⟩ := clear_writes hf
  obtain ⟨-, hr, -⟩ := replaced_ok (w := { w with graph := E.cuba, names := E.cuba }) hE ht hfs
  rcases hr p hp with hp | ⟨j, d', hd', -, rfl⟩
  · exact hi p hp (getIdentifier_ok.2 ⟨d, hd, hid⟩)
  · have hd'' : w.docOf j = some d' := hd'
    rw [readDoc_installed hE ht hd''] at hd
    cases hd
    have : j = i := by rw [← hid]; exact (ht.ident hd'').1.symm
    subst this
    rw [hd''] at hno; cases hno

open Osp.Install.Ex in
/-- Example: the uninstallation of `parser_test`, whenever it is killed; after the clearing and before the writing the document is gone, before the clearing it is there. -/
theorem test_removed : (∀ dir', Left (planned E0 (remaining E0) true w1 ["parser_test".toList]) w1.dir dir' →
      look dir' "parser_test.yml".toList = look w1.dir "parser_test.yml".toList ∨ look dir' "parser_test.yml".toList = none) ∧
    (look w1.dir "parser_test.yml".toList).isSome = true ∧ (planned E0 (remaining E0) true w1 ["parser_test".toList]).length = 7 := by
  refine ⟨fun dir' h => ?_, by decide +kernel, by decide +kernel⟩
  have hm : meant E0 w1 "parser_test".toList = .ok "parser_test".toList := by decide +kernel
  exact uninstall_killed_removes fair0 good1.tidy h "parser_test".toList (Or.inl ⟨_, by simp, hm⟩)

open Osp.Install.Ex in
/-- Example: an overwriting installation of `city`, whenever it is killed, does not install `turtle`. -/
theorem city_overwritten (dir' : List (Text × File Nat (List Nat))) (h : Left (planned E0 (replaced E0) true w1 ["/p/city.yml".toList]) w1.dir dir') :
    look dir' "turtle.yml".toList = none := by
  have hn : (w1.docOf "turtle".toList).isSome = false := by decide +kernel
  have hl : (look w1.dir "turtle.yml".toList).isSome = false := by decide +kernel
  have hc : (getIdentifier E0 w1 "/p/city.yml".toList) = .ok "city".toList := by decide +kernel
  have hl' : look w1.dir ("turtle".toList ++ dotYml) = none := by
    have : "turtle".toList ++ dotYml = "turtle.yml".toList := by decide
    rw [this]; simpa using hl
  have := overwrite_killed_adds fair0 good1.tidy h "turtle".toList (by simpa using hn) (by
    intro f hf
    rw [List.mem_singleton] at hf
    rw [hf, hc]
    intro he
    cases he)
  rw [hl', or_self] at this
  exact this

end Osp.Killed
