import Verif.Killed.Witness
/-! Between two operations of `install`, every package that counts as installed is complete. -/
namespace Osp.Killed
open Osp.Install

variable {G B R : Type} {E : Env G B R}

/-- Every RDF package of the directory comes with its RDF file. Specification. -/
def Complete (dir : List (Text × File B R)) : Prop := ∀ i d, docIn dir i = some d → d.owl = true → ∃ c, look dir (i ++ ".xml".toList) = some (.rdf xml c)

theorem complete_xml {dir : List (Text × File B R)} (h : Complete dir) (j : Text) (c : R) : Complete (put (j ++ dotXml) (.rdf xml c) dir) := by
  intro i d hd ho
  have hd' : docIn dir i = some d := by
    unfold docIn at hd ⊢
    rwa [look_put, if_neg (fun h => xml_ne_yml _ _ h.symm)] at hd
  obtain ⟨c', hc⟩ := h i d hd' ho
  change ∃ c'', look (put (j ++ dotXml) (.rdf xml c) dir) (i ++ dotXml) = _
  rw [look_put]
  split
  · exact ⟨c, rfl⟩
  · exact ⟨c', hc⟩

theorem complete_yml {dir : List (Text × File B R)} (h : Complete dir) (j : Text) (d0 : Doc B)
    (h0 : d0.owl = true → ∃ c, look dir (j ++ dotXml) = some (.rdf xml c)) : Complete (put (j ++ dotYml) (.pkg d0) dir) := by
  intro i d hd ho
  change ∃ c'', look (put (j ++ dotYml) (.pkg d0) dir) (i ++ dotXml) = _
  rw [look_put, if_neg (xml_ne_yml _ _)]
  unfold docIn at hd
  rw [look_put] at hd
  split at hd
  · rename_i hij
    split at hij
    · rename_i he
      have := app_yml_inj he
      subst this
      cases hij
      cases hd
      exact h0 ho
    · exact h i d (by unfold docIn; rw [hij]; exact hd) ho
  · cases hd

theorem complete_docOps {gr : List (Text × R)} {d : Doc B} {ops : List (FOp B R)} (ho : docOps gr d = some ops) {dir : List (Text × File B R)} (h : Complete dir) (k : Nat) :
    Complete ((ops.take k).foldl FOp.exec dir) := by
  unfold docOps at ho
  simp only at ho
  split at ho
  · split at ho
    · cases ho
    · split at ho
      · cases ho
      · cases ho
        match k with
        | 0 => exact h
        | 1 => exact complete_xml h _ _
        | k + 2 =>
          simp only [List.take_succ_cons, List.take_nil, List.foldl_cons, List.foldl_nil, FOp.exec]
          exact complete_yml (complete_xml h _ _) _ _ fun _ => ⟨_, by rw [look_put, if_pos rfl]⟩
  · rename_i hx
    split at ho
    · cases ho
    · cases ho
      match k with
      | 0 => exact h
      | k + 1 =>
        simp only [List.take_succ_cons, List.take_nil, List.foldl_cons, List.foldl_nil, FOp.exec]
        exact complete_yml h _ _ fun h' => absurd h' hx

theorem complete_docsOps (gr : List (Text × R)) (ds : List (Doc B)) : ∀ (k : Nat) (dir : List (Text × File B R)), Complete dir → Complete (((docsOps gr ds).1.take k).foldl FOp.exec dir) := by
  induction ds with
  | nil => intro k dir h; simpa [docsOps] using h
  | cons d ds ih =>
    intro k dir h
    unfold docsOps
    cases ho : docOps gr d with
    | none => simpa using h
    | some ops =>
      simp only [List.take_append, List.foldl_append]
      exact ih _ _ (complete_docOps ho h k)

/-- **C109.** After any number of complete operations of `install`, every RDF package that counts as installed comes with its RDF file: the RDF file is written first. -/
theorem complete_between {w : World G B R} (ht : Complete w.dir) (filter : World G B R → List Text → Except PyErr (List Text)) (files : List Text) (k : Nat) :
    Complete (((planned E filter false w files).take k).foldl FOp.exec w.dir) := by
  unfold planned
  simp only [Bool.false_eq_true, if_false, List.nil_append]
  split
  · simpa using ht
  · split
    · simpa using ht
    · split
      · simpa using ht
      · rename_i P _
        rw [List.take_append, List.foldl_append]
        have h := complete_docsOps P.graphs P.docs k _ ht
        generalize (k - (docsOps P.graphs P.docs).1.length) = m
        generalize ((List.take k (docsOps P.graphs P.docs).1).foldl FOp.exec w.dir) = dir at h
        split
        · unfold regOps
          have h1 : Complete (put graphXml (.rdf xml (E.dump P.graph)) dir) := complete_xml h "graph".toList _
          match m with
          | 0 => exact h
          | 1 => exact h1
          | m + 2 =>
            simp only [List.take_succ_cons, List.take_nil, List.foldl_cons, List.foldl_nil, FOp.exec]
            intro i d hd ho
            obtain ⟨c, hc⟩ := h1 i d (by
              unfold docIn at hd ⊢
              rwa [look_put, if_neg (yml_ne_names i)] at hd) ho
            exact ⟨c, by rw [look_put, if_neg (show ¬ i ++ ".xml".toList = namespacesTxt from xml_ne_names i)]; exact hc⟩
        · simpa using h

/-- **C109 fails if the saved graph is being written.** Every command that would have succeeded can be killed while `graph.xml` is written: then every further command raises
and changes nothing, so that no sequence of commands repairs the installation. -/
theorem graph_torn (filter : World G B R → List Text → Except PyErr (List Text)) (clear : Bool) (w : World G B R) (files : List Text)
    (h : (install' E filter clear w files).2 = none) :
    ∃ dir', Left (planned E filter clear w files) w.dir dir' ∧ ∀ (empty : G) spaces (cs : List (Option PyErr × Osp.Pico.Cmd)) (w2 : World G B R), w2.dir = dir' →
      (cs.foldl (fun w c => (command E empty spaces c.1 w c.2).1) w2).dir = dir' ∧
      ∀ level c, ∃ e, (command E empty spaces level w2 c).2 = .error e := by
  have hplan : ∃ ops g, planned E filter clear w files = ops ++ regOps E g := by
    unfold planned
    unfold install' at h
    simp only at h ⊢
    cases hf : filter (if clear = true then { w with graph := E.cuba, names := E.cuba } else w) files with
    | error e => rw [hf] at h; cases h
    | ok fs =>
      rw [hf] at h
      simp only at h ⊢
      cases hs : sortFor E (if clear = true then { w with graph := E.cuba, names := E.cuba } else w) fs (if clear = true then [] else w.installed E) with
      | error e => rw [hs] at h; cases h
      | ok order =>
        rw [hs] at h
        simp only at h ⊢
        cases hp : parseAll E (if clear = true then { w with graph := E.cuba, names := E.cuba } else w)
          { graph := (if clear = true then { w with graph := E.cuba, names := E.cuba } else w).graph, docs := [], graphs := [] } order with
        | mk P o =>
          rw [hp] at h
          cases o with
          | some e => cases h
          | none =>
            simp only at h ⊢
            obtain ⟨_, h2⟩ := exec_docsOps P.graphs P.docs (if clear = true then [] else (if clear = true then { w with graph := E.cuba, names := E.cuba } else w).dir)
            cases hst : storeDocs P.graphs (if clear = true then [] else (if clear = true then { w with graph := E.cuba, names := E.cuba } else w).dir) P.docs with
            | mk dir o =>
              rw [hst] at h h2
              cases o with
              | some e => cases h
              | none =>
                rw [if_pos (h2.1 rfl)]
                exact ⟨_, _, rfl⟩
  obtain ⟨ops, g, hpl⟩ := hplan
  refine ⟨put graphXml .other (ops.foldl FOp.exec w.dir), ⟨ops.length, Or.inr ⟨graphXml, .rdf xml (E.dump g), .other, ?_, ?_⟩⟩, ?_⟩
  · rw [hpl, List.getElem?_append_right (Nat.le_refl _), Nat.sub_self]
    rfl
  · rw [hpl, List.take_append_of_le_length (Nat.le_refl _), List.take_length]
  · intro empty spaces cs w2 hw2
    have hs : ∀ w3 : World G B R, w3.dir = put graphXml .other (ops.foldl FOp.exec w.dir) → startRaises w3.dir = true := by
      intro w3 h3
      unfold startRaises
      rw [h3, look_put, if_pos rfl]
    refine ⟨?_, fun level c => ⟨.exception, ?_⟩⟩
    · induction cs generalizing w2 with
      | nil => exact hw2
      | cons c cs ih =>
        rw [List.foldl_cons]
        apply ih
        unfold command
        rw [if_pos (hs _ hw2)]
        exact hw2
    · unfold command
      rw [if_pos (hs _ hw2)]

/-- Directories in order can be loaded, and then `command` is the pico command of C94. -/
theorem command_sound (empty : G) (spaces : G → List Text) (level : Option PyErr) (w : World G B R) (c : Osp.Pico.Cmd) {g : G} (hs : Osp.Pico.Sound E w.dir g) :
    command E empty spaces level w c = Osp.Pico.pico E empty spaces level w c := by
  unfold command
  rw [if_neg]
  unfold startRaises
  rcases hs.saved with ⟨h, _⟩ | ⟨h, _⟩ <;> rw [h] <;> simp

/-- Installed directories in order meet the condition. -/
theorem tidy_complete {w : World G B R} (ht : Tidy w.dir) : Complete w.dir := by
  intro i d hd ho
  have hi : d.ident = i := (ht.ident hd).1
  unfold docIn at hd
  split at hd
  · rename_i f hl
    obtain ⟨d', hf, _, _, _, h⟩ := ht.pkgs _ _ hl ((endsWith_iff _ _).2 ⟨i, rfl⟩)
    cases hf
    cases hd
    obtain ⟨_, _, _, c, hc⟩ := h ho
    rw [hi] at hc
    exact ⟨c, hc⟩
  · cases hd

open Osp.Install.Ex in
/-- Example: `turtle` is being installed. -/
theorem turtle_torn : ∃ dir', Left (planned E0 (newPackages E0) false w1 ["/p/turtle.yml".toList]) w1.dir dir' ∧ ∀ w2 : World (List Nat) Nat (List Nat), w2.dir = dir' →
    ∃ e, (command E0 [] (fun _ => []) none w2 (.uninstall ["all".toList])).2 = .error e := by
  obtain ⟨dir', h1, h2⟩ := graph_torn (E := E0) (newPackages E0) false w1 _ turtle_succeeds
  exact ⟨dir', h1, fun w2 h => (h2 [] (fun _ => []) [] w2 h).2 none _⟩

open Osp.Install.Ex in
/-- Example: after the second operation `turtle` counts as installed, and its RDF file is there. -/
theorem turtle_complete : ∃ c, look (turtle 2) "turtle.xml".toList = some (.rdf xml c) := by
  have h : (docIn (turtle 2) "turtle".toList).map (·.owl) = some true := by decide +kernel
  cases hd : docIn (turtle 2) "turtle".toList with
  | none => rw [hd] at h; cases h
  | some d =>
    rw [hd] at h
    exact complete_between (E := E0) (tidy_complete good1.tidy) _ _ 2 "turtle".toList d hd (by simpa using h)

end Osp.Killed
