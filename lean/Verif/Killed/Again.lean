import Verif.Killed.Kept
/-! A killed `uninstall` cannot be repeated. -/
namespace Osp.Killed
open Osp.Install

variable {G B R : Type} {E : Env G B R}

/-- **C109, repeating an uninstall.** If `pico uninstall` was killed after it removed the document of a package that it was to remove, then repeating the command is refused and writes nothing: what was lost is not restored.
(`w2` is the installation that the next process finds; its directory is in order, as it is after the removal of all files.) -/
theorem uninstall_not_repeated (hE : Fair E) {w2 : World G B R} (ht : Tidy w2.dir) {args : List Text} {a : Text} (ha : a ∈ args) (hgone : ∀ i, meant E w2 a = .ok i → w2.docOf i = none) :
    (uninstall E w2 args).2 ≠ none ∧ (uninstall E w2 args).1.dir = w2.dir ∧ planned E (remaining E) true w2 args = [] := by
  have hno : ∀ w : World G B R, w.dir = w2.dir → w.ext = w2.ext → ∃ e, remaining E w args = .error e := by
    intro w hd hx
    cases hr : remaining E w args with
    | error e => exact ⟨e, rfl⟩
    | ok fs =>
      obtain ⟨h1, -⟩ := remaining_ok hE (by rw [hd]; exact ht) hr
      obtain ⟨i, d, hm, hd'⟩ := h1 a ha
      obtain ⟨dir, ext, g, n⟩ := w
      obtain ⟨dir2, ext2, g2, n2⟩ := w2
      simp only at hd hx
      subst hd
      subst hx
      have : World.docOf ({ dir := dir, ext := ext, graph := g2, names := n2 } : World G B R) i = none := hgone i hm
      rw [docOf_eq] at this hd'
      rw [this] at hd'; cases hd'
  obtain ⟨e, he⟩ := hno { w2 with graph := E.cuba, names := E.cuba } rfl rfl
  refine ⟨?_, ?_, ?_⟩
  · simp [uninstall, install', he]
  · simp [uninstall, install', he]
  · simp [planned, he]

/-- **C109 fails for repeated uninstallations.** Every `pico uninstall` that gets as far as writing can be killed so that all packages are lost and repeating it is refused. -/
theorem uninstall_lost (hE : Fair E) (w : World G B R) {args : List Text} (hne : args ≠ []) (hp : planned E (remaining E) true w args ≠ []) :
    ∃ dir', Left (planned E (remaining E) true w args) w.dir dir' ∧ (∀ i, docIn dir' i = none) ∧
      ∀ w2 : World G B R, w2.dir = dir' → (uninstall E w2 args).2 ≠ none ∧ ∀ i, (uninstall E w2 args).1.docOf i = none := by
  refine ⟨[], clear_killed_loses _ w args hp, fun i => rfl, fun w2 h2 => ?_⟩
  obtain ⟨a, ha⟩ := List.exists_mem_of_ne_nil args hne
  have h := uninstall_not_repeated hE (w2 := w2) (by rw [h2]; exact tidy_nil) ha (fun i _ => by rw [docOf_eq, h2]; rfl)
  refine ⟨h.1, fun i => ?_⟩
  rw [docOf_eq, h.2.1, h2]
  rfl

/-- **C109 fails for repeated overwriting installations.** Every `pico install --overwrite` that gets as far as writing can be killed so that repeating it ends without an error, with the named packages only:
those that should stay are lost without a message. -/
theorem overwrite_lost (hE : Fair E) (w : World G B R) (hw : Good w) {files : List Text} (hp : planned E (replaced E) true w files ≠ []) :
    ∃ dir', Left (planned E (replaced E) true w files) w.dir dir' ∧
      ∀ w2 w3 : World G B R, w2.dir = dir' → w2.ext = w.ext → overwrite E w2 files = (w3, none) →
        ∀ i, (∀ f ∈ files, getIdentifier E w2 f ≠ .ok i) → w3.docOf i = none := by
  refine ⟨[], clear_killed_loses _ w files hp, fun w2 w3 h2 hx h i hi => ?_⟩
  have hg : Good w2 := ⟨by rw [h2]; exact tidy_nil, by rw [h2]; exact ⟨[], by simp [docIn, look], by simp [Arranged]⟩, fun t d ht => hw.undotted t d (by rw [← hx]; exact ht)⟩
  rw [(overwrite_exact E hE w2 w3 files hg h).2.1 i hi, docOf_eq, h2]
  rfl

open Osp.Install.Ex in
/-- Example: `parser_test` is installed and its uninstallation writes; a kill loses `city` as well, and the command cannot be repeated. -/
theorem test_lost : ∃ dir', Left (planned E0 (remaining E0) true w1 ["parser_test".toList]) w1.dir dir' ∧ (∀ i, docIn dir' i = none) ∧
    ∀ w2 : World (List Nat) Nat (List Nat), w2.dir = dir' → (uninstall E0 w2 ["parser_test".toList]).2 ≠ none ∧ ∀ i, (uninstall E0 w2 ["parser_test".toList]).1.docOf i = none := by
  refine uninstall_lost fair0 w1 (by simp) fun h => ?_
  have hl : (planned E0 (remaining E0) true w1 ["parser_test".toList]).length = 7 := by decide +kernel
  rw [h] at hl
  exact absurd hl (by decide)

open Osp.Install.Ex in
/-- Example: `turtle` is installed with `--overwrite`; after a kill the same command succeeds, and `city` is gone. -/
theorem city_lost : planned E0 (replaced E0) true w1 ["/p/turtle.yml".toList] ≠ [] ∧ (overwrite E0 { w1 with dir := [] } ["/p/turtle.yml".toList]).2 = none ∧
    (w1.docOf "city".toList).isSome = true ∧ ((overwrite E0 { w1 with dir := [] } ["/p/turtle.yml".toList]).1.docOf "city".toList).isSome = false := by
  refine ⟨fun h => ?_, by decide +kernel, by decide +kernel, by decide +kernel⟩
  have hl : (planned E0 (replaced E0) true w1 ["/p/turtle.yml".toList]).length ≠ 0 := by decide +kernel
  rw [h] at hl
  exact hl rfl

end Osp.Killed
