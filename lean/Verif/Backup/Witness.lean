import Verif.Backup.Props
/-!
# Writing a converted ontology: concrete cases and findings (C105)
-/
namespace Osp.Backup
open Osp.Camel Osp.Yaml

/-- Example: the path of the file. -/
def onto : Text := "o.yml".toList
/-- Example: another path of the same file. -/
def onto2 : Text := "a/../o.yml".toList
/-- Example: two names of backups and another file. -/
def names : List Text := ["o.yml.orig".toList, "o.yml.orig[0]".toList, "o.yml.orig[1]".toList, "x.yml".toList]

/-- Example: texts are copied letter by letter; everything else is converted to nothing. -/
def E0 : Env where
  leads t := if t = onto ∨ t = onto2 then 0 else 1 + names.idxOf t
  creatable _ := true
  pieces t := t.map fun c => [c]
  dump _ := ["n".toList, "ew".toList]
  parse t := if t = "old".toList then some [(.str nsKey, .str "CITY".toList), (.str ontoKey, .dict [])] else none

/-- Example: a disc with the file and one backup. -/
def d0 : Disk := fun p => if p = 0 then .file "old".toList else if p = 1 then .file "older".toList else if p = 4 then .file "x".toList else .absent

theorem faithful0 : Faithful E0 := by
  intro t
  show (t.map fun c => [c]).flatten = t
  induction t with
  | nil => rfl
  | cons c t ih => rw [List.map_cons, List.flatten_cons, ih]; rfl

/-- The names of backups, written out. -/
example : cand onto 0 = "o.yml.orig".toList ∧ cand onto 1 = "o.yml.orig[0]".toList ∧ cand onto 12 = "o.yml.orig[11]".toList := by decide +kernel

/-- A conversion in place: the old backup stays, the original goes to the next free name. -/
example : ((store E0 5 (.path onto) ["n".toList, "ew".toList] none none d0).map fun r => (r.1, r.2 0, r.2 1, r.2 2, r.2 3, r.2 4)) =
    some (.done, .file "new".toList, .file "older".toList, .file "old".toList, .absent, .file "x".toList) := by decide +kernel

/-- The hypotheses of `in_place_partial` hold, also for conversions that are interrupted while the backup or the document is written. -/
example (n : Option Nat) (e : End) (d' : Disk) (h : store E0 5 (.path onto) ["n".toList, "ew".toList] none n d0 = some (e, d')) :
    ∃ b, FirstFree E0 d0 onto b ∧ Kept (E0.leads onto) (E0.leads b) "old".toList (["n".toList, "ew".toList] : List Text).flatten e d0 d' :=
  in_place_partial (E := E0) (d := d0) (x := .path onto) faithful0 (Or.inl rfl) 5 ["n".toList, "ew".toList] n (t := "old".toList) (by decide +kernel) h

/-- Interrupted after two and after six operations. -/
example : ((store E0 5 (.path onto) ["n".toList, "ew".toList] none (some 2) d0).map fun r => (r.1, r.2 0, r.2 2)) = some (.interrupted, .file "old".toList, .file "o".toList) ∧
    ((store E0 5 (.path onto) ["n".toList, "ew".toList] none (some 6) d0).map fun r => (r.1, r.2 0, r.2 2)) = some (.interrupted, .file "n".toList, .file "old".toList) := by decide +kernel

theorem leads_other (t : Text) (h1 : t ≠ onto) (h2 : t ≠ onto2) (h3 : t ∉ names) : d0 (E0.leads t) = .absent := by
  have : E0.leads t = 1 + names.idxOf t := if_neg (by rintro (q | q); exacts [h1 q, h2 q])
  rw [this, List.idxOf_eq_length h3]
  decide +kernel

theorem atMost0 : AtMost E0 d0 onto 4 := by
  refine ⟨names, by decide, fun k hk => ?_⟩
  by_cases h : cand onto k ∈ names
  · exact h
  · refine absurd (leads_other _ ?_ ?_ h) hk
    · intro q
      have := congrArg List.length q
      cases k with
      | zero => simp [cand, onto] at this
      | succ k => simp [cand, onto] at this
    · intro q
      have h1 : ∃ a, cand onto k = onto ++ a := by
        cases k with
        | zero => exact ⟨_, rfl⟩
        | succ k => exact ⟨".orig[".toList ++ dec k ++ "]".toList, by rw [← List.append_assoc, ← List.append_assoc]; rfl⟩
      obtain ⟨a, ha⟩ := h1
      have h2 : (onto ++ a).head? = onto2.head? := by rw [← ha, q]
      have h3 : (onto ++ a).head? = some 'o' := List.head?_append_of_ne_nil _ (by decide)
      have h4 : onto2.head? = some 'a' := by decide
      rw [h3, h4] at h2
      exact absurd h2 (by decide)

/-- The hypotheses of `in_place_succeeds` hold. -/
example : ∃ b d', store E0 6 (.path onto) ["n".toList, "ew".toList] none none d0 = some (.done, d') ∧ FirstFree E0 d0 onto b ∧ Kept (E0.leads onto) (E0.leads b) "old".toList (["n".toList, "ew".toList] : List Text).flatten .done d0 d' :=
  in_place_succeeds (E := E0) (d := d0) (x := .path onto) faithful0 (Or.inl rfl) 4 6 atMost0 (by decide) (fun _ => rfl) ["n".toList, "ew".toList] (t := "old".toList) (by decide +kernel)

/-- Example: three conversions in place, two of them interrupted. -/
def history : List Conversion := [⟨["n".toList, "ew".toList], none, some 5⟩, ⟨["2".toList], some (.path onto), some 0⟩, ⟨["3".toList], some (.str []), none⟩]

/-- The hypotheses of `original_survives_partial` hold, and the history does something. -/
example : (∃ t', conversions E0 9 (.path onto) history d0 (E0.leads onto) = .file t') ∧
    (conversions E0 9 (.path onto) history d0 (E0.leads onto) = .file "old".toList ∨ ∃ k, conversions E0 9 (.path onto) history d0 (E0.leads (cand onto k)) = .file "old".toList ∧ d0 (E0.leads (cand onto k)) = .absent) ∧
    ∀ q, q ≠ E0.leads onto → d0 q ≠ .absent → conversions E0 9 (.path onto) history d0 q = d0 q :=
  original_survives_partial (E := E0) faithful0 9 (.path onto) history d0 "old".toList (by
    intro c hc
    have : c = history[0] ∨ c = history[1] ∨ c = history[2] := by simpa [history] using hc
    rcases this with rfl | rfl | rfl
    · exact Or.inl rfl
    · exact Or.inr (Or.inr rfl)
    · exact Or.inr (Or.inl rfl)) (by decide +kernel)

example : (List.range 5).map (conversions E0 9 (.path onto) history d0) = [.file "3".toList, .file "older".toList, .file "old".toList, .file [], .file "x".toList] := by decide +kernel

/-- Another output: only this file is written. -/
example : ((store E0 5 (.path onto) ["n".toList, "ew".toList] (some (.path "x.yml".toList)) none d0).map fun r => (r.1, r.2 0, r.2 2, r.2 4)) =
    some (.done, .file "old".toList, .absent, .file "new".toList) := by decide +kernel

/-- The hypotheses of `elsewhere` hold. -/
example : ¬ InPlace (.path onto) (some (.path "x.yml".toList)) := by
  rintro (h | h | h)
  · exact (nomatch h)
  · exact (nomatch h)
  · exact absurd h (by decide)

/-- The tool converts the file, and a file that cannot be converted stays as it is. -/
example : ((tool E0 5 (fun _ => true) 10 onto none none d0).map fun r => (r.1, r.2 0, r.2 2)) = some (.done, .file "new".toList, .file "old".toList) ∧
    ((tool E0 5 (fun _ => true) 10 "x.yml".toList none none d0).map fun r => (r.1, r.2 4)) = some (.raised .valueError, .file "x".toList) := by decide +kernel

/-! ### Findings -/

/-- **Finding.** If the output is given by another path of the same file - with `..`, as an absolute path, through a link -, the original is overwritten and there is no backup: the paths are
compared, not the files (y2c:98). -/
theorem alias_loses_original : ((tool E0 5 (fun _ => true) 10 onto (some onto2) none d0).map fun r => (r.1, (List.range 5).map r.2)) =
    some (.done, [.file "new".toList, .file "older".toList, .absent, .absent, .file "x".toList]) := by decide +kernel

/-- **Finding.** The same if the file was given as a text and the output as a `Path`, or the other way round. -/
theorem kinds_lose_original : ((store E0 5 (.str onto) ["new".toList] (some (.path onto)) none d0).map fun r => (r.1, (List.range 5).map r.2)) =
    some (.done, [.file "new".toList, .file "older".toList, .absent, .absent, .file "x".toList]) := by decide +kernel

/-- **Finding.** A file that is written somewhere else and existed before is lost if the writing is interrupted: there is no backup of it. -/
theorem other_output_lost : ((store E0 5 (.path onto) ["n".toList, "ew".toList] (some (.path "x.yml".toList)) (some 1) d0).map fun r => (r.1, (List.range 5).map r.2)) =
    some (.interrupted, [.file "old".toList, .file "older".toList, .absent, .absent, .file []]) := by decide +kernel

end Osp.Backup
