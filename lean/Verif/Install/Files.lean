import Verif.Install.Sorted
import Verif.Names.Resolve
/-!
# Reading the sorted packages and writing them: facts
-/
namespace Osp.Install
variable {G B R : Type}

/-- Reading these package files one after the other takes the graph from `g` to `g'` (specification). -/
inductive Loads (E : Env G B R) (w : World G B R) : G → List Text → G → Prop where
  | nil (g : G) : Loads E w g [] g
  | yml {g g1 g2 : G} {f : Text} {l : List Text} {d : Doc B} (hd : readDoc E w f = .ok d) (ho : d.owl = false) (hg : E.yml g d = (g1, none)) (hl : Loads E w g1 l g2) : Loads E w g (f :: l) g2
  | rdf {g g1 g2 : G} {f : Text} {l : List Text} {d : Doc B} {fmt : Text} {c : R} (hd : readDoc E w f = .ok d) (ho : d.owl = true) (hr : d.reqs = .absent) (hdot : '.' ∉ d.name)
      (hf : w.read E (rdfPath (filePath E w f) d) = some (.rdf fmt c)) (hfmt : fmt = d.format.getD xml) (hg : E.rdf g d c = (g1, none)) (hl : Loads E w g1 l g2) : Loads E w g (f :: l) g2

/-- What one successful `parse` does. -/
theorem parse_ok {E : Env G B R} {w : World G B R} {P P' : Parser G B R} {t : Text} (h : parse E w P t = (P', none)) :
    ∃ d, readDoc E w t = .ok d ∧ P'.docs = P.docs ++ [d] ∧
      ((d.owl = false ∧ P'.graphs = P.graphs ∧ E.yml P.graph d = (P'.graph, none)) ∨
       (d.owl = true ∧ d.reqs = .absent ∧ '.' ∉ d.name ∧ ∃ fmt c, w.read E (rdfPath (filePath E w t) d) = some (.rdf fmt c) ∧ fmt = d.format.getD xml ∧ P'.graphs = put d.name c P.graphs ∧
          E.rdf P.graph d c = (P'.graph, none))) := by
  unfold parse at h
  cases hd : readDoc E w t with
  | error e => rw [hd] at h; cases h
  | ok d =>
    rw [hd] at h
    refine ⟨d, rfl, ?_⟩
    cases ho : d.owl with
    | true =>
      simp only [ho, if_true] at h
      split at h
      · cases h
      · rename_i hdot
        split at h
        · cases h
        · rename_i hr
          cases hf : w.read E (rdfPath (filePath E w t) d) with
          | none => rw [hf] at h; cases h
          | some fl =>
            rw [hf] at h
            cases fl with
            | rdf fmt c =>
              simp only at h
              split at h
              · rename_i hfmt
                cases hg : E.rdf P.graph d c with
                | mk g oe =>
                  cases oe with
                  | some e => rw [hg] at h; cases h
                  | none =>
                    rw [hg] at h
                    simp only [Prod.mk.injEq, and_true] at h
                    subst h
                    exact ⟨rfl, Or.inr ⟨rfl, Decidable.not_not.1 hr, hdot, fmt, c, rfl, hfmt, rfl, hg⟩⟩
              · cases h
            | pkg _ => cases h
            | empty => cases h
            | noPkg => cases h
            | names _ => cases h
            | other => cases h
    | false =>
      simp only [ho, Bool.false_eq_true, if_false] at h
      cases hg : E.yml P.graph d with
      | mk g oe =>
        cases oe with
        | some e => rw [hg] at h; cases h
        | none =>
          rw [hg] at h
          simp only [Prod.mk.injEq, and_true] at h
          subst h
          exact ⟨rfl, Or.inl ⟨rfl, rfl, rfl⟩⟩

theorem parseAll_ok {E : Env G B R} {w : World G B R} : ∀ (l : List Text) (P P' : Parser G B R), parseAll E w P l = (P', none) →
    Loads E w P.graph l P'.graph ∧ ∃ ds : List (Text × Doc B), ds.map (·.1) = l ∧ P'.docs = P.docs ++ ds.map (·.2) ∧ (∀ e ∈ ds, readDoc E w e.1 = .ok e.2) ∧
      (∀ e ∈ ds, e.2.owl = true → e.2.reqs = .absent ∧ '.' ∉ e.2.name) ∧
      ((ds.map (·.2.name)).Nodup → (∀ e ∈ ds, e.2.owl = true → ∃ fmt c, w.read E (rdfPath (filePath E w e.1) e.2) = some (.rdf fmt c) ∧ look P'.graphs e.2.name = some c) ∧
        (∀ k, (∀ e ∈ ds, e.2.owl = true → e.2.name ≠ k) → look P'.graphs k = look P.graphs k)) := by
  intro l
  induction l with
  | nil =>
    intro P P' h
    simp only [parseAll, Prod.mk.injEq, and_true] at h
    subst h
    exact ⟨.nil _, [], by simp⟩
  | cons t l ih =>
    intro P P' h
    simp only [parseAll] at h
    cases hp : parse E w P t with
    | mk P1 oe =>
      rw [hp] at h
      cases oe with
      | some e => cases h
      | none =>
        simp only at h
        obtain ⟨d, hd, hdocs, hcase⟩ := parse_ok hp
        obtain ⟨hl, ds, h1, h2, h3, h4, h5⟩ := ih P1 P' h
        refine ⟨?_, (t, d) :: ds, by simp [h1], by rw [h2, hdocs]; simp, ?_, ?_, ?_⟩
        · rcases hcase with ⟨ho, -, hg⟩ | ⟨ho, hr, hdot, fmt, c, hf, hfmt, -, hg⟩
          · exact .yml hd ho hg hl
          · exact .rdf hd ho hr hdot hf hfmt hg hl
        · intro e he
          rcases List.mem_cons.1 he with rfl | he
          · exact hd
          · exact h3 e he
        · intro e he ho
          rcases List.mem_cons.1 he with rfl | he
          · rcases hcase with ⟨ho', -⟩ | ⟨-, hr, hdot, -⟩
            · rw [ho] at ho'; cases ho'
            · exact ⟨hr, hdot⟩
          · exact h4 e he ho
        · intro hn
          simp only [List.map_cons, List.nodup_cons] at hn
          obtain ⟨h6, h7⟩ := h5 hn.2
          have hne : ∀ e ∈ ds, e.2.name ≠ d.name := fun e he heq => hn.1 (heq ▸ List.mem_map.2 ⟨e, he, rfl⟩)
          constructor
          · intro e he ho
            rcases List.mem_cons.1 he with rfl | he
            · rcases hcase with ⟨ho', -⟩ | ⟨-, -, -, fmt, c, hf, -, hgr, -⟩
              · rw [ho] at ho'; cases ho'
              · refine ⟨fmt, c, hf, ?_⟩
                rw [h7 d.name (fun e he _ => hne e he), hgr, look_put]
                simp
            · exact h6 e he ho
          · intro k hk
            rw [h7 k (fun e he ho => hk e (List.mem_cons_of_mem _ he) ho)]
            rcases hcase with ⟨-, hgr, -⟩ | ⟨ho, -, -, fmt, c, -, -, hgr, -⟩
            · rw [hgr]
            · rw [hgr, look_put]
              have : ¬ k = d.name := fun hkd => hk (t, d) List.mem_cons_self ho hkd.symm
              simp [this]

/-! ### writing -/

theorem app_yml_inj {i j : Text} (h : i ++ dotYml = j ++ dotYml) : i = j := List.append_cancel_right h
theorem app_xml_inj {i j : Text} (h : i ++ dotXml = j ++ dotXml) : i = j := List.append_cancel_right h
theorem xml_ne_yml (i j : Text) : i ++ dotXml ≠ j ++ dotYml := by
  intro h
  have := congrArg (fun t => t.reverse.take 3) h
  simp [dotXml, dotYml] at this

/-- The document as it is written. -/
def Doc.stamp (d : Doc B) : Doc B := if d.owl then { d with file := d.ident ++ dotXml } else d

theorem stamp_ident (d : Doc B) : d.stamp.ident = d.ident := by unfold Doc.stamp; split <;> rfl
theorem stamp_owl (d : Doc B) : d.stamp.owl = d.owl := by unfold Doc.stamp; split <;> rfl
theorem stamp_name (d : Doc B) : d.stamp.name = d.name := by unfold Doc.stamp; split <;> rfl
theorem stamp_reqs (d : Doc B) : d.stamp.reqs = d.reqs := by unfold Doc.stamp; split <;> rfl
theorem stamp_same (d : Doc B) : d.stamp.Same d := by unfold Doc.stamp Doc.Same; split <;> rfl

theorem storeDoc_ok {gr : List (Text × R)} {dir dir' : List (Text × File B R)} {d : Doc B} (h : storeDoc gr dir d = (dir', none)) :
    '/' ∉ d.ident ∧ ((d.owl = false ∧ dir' = put (d.ident ++ dotYml) (.pkg d.stamp) dir) ∨
      (d.owl = true ∧ ∃ c, look gr d.ident = some c ∧ dir' = put (d.ident ++ dotYml) (.pkg d.stamp) (put (d.ident ++ dotXml) (.rdf xml c) dir))) := by
  unfold storeDoc at h
  simp only at h
  cases ho : d.owl with
  | false =>
    simp only [ho, Bool.false_eq_true, if_false] at h
    split at h
    · cases h
    · rename_i hs
      simp only [Prod.mk.injEq, and_true] at h
      refine ⟨hs, Or.inl ⟨rfl, ?_⟩⟩
      rw [← h]; simp [Doc.stamp, ho]
  | true =>
    simp only [ho, if_true] at h
    cases hc : look gr d.ident with
    | none => rw [hc] at h; cases h
    | some c =>
      rw [hc] at h
      simp only at h
      split at h
      · cases h
      · rename_i hs
        simp only [Prod.mk.injEq, and_true] at h
        refine ⟨hs, Or.inr ⟨rfl, c, rfl, ?_⟩⟩
        rw [← h]; simp [Doc.stamp, ho]

/-- What writing the documents does. -/
theorem storeDocs_ok {gr : List (Text × R)} : ∀ (ds : List (Doc B)) (dir dir' : List (Text × File B R)), (ds.map Doc.ident).Nodup → storeDocs gr dir ds = (dir', none) →
    (∀ d ∈ ds, '/' ∉ d.ident ∧ look dir' (d.ident ++ dotYml) = some (.pkg d.stamp) ∧ (d.owl = true → ∃ c, look gr d.ident = some c ∧ look dir' (d.ident ++ dotXml) = some (.rdf xml c))) ∧
    (∀ n, (∀ d ∈ ds, n ≠ d.ident ++ dotYml ∧ (d.owl = true → n ≠ d.ident ++ dotXml)) → look dir' n = look dir n) ∧
    ((dir.map (·.1)).Nodup → (dir'.map (·.1)).Nodup) ∧
    (∀ n, n ∈ dir'.map (·.1) → n ∈ dir.map (·.1) ∨ ∃ d ∈ ds, n = d.ident ++ dotYml ∨ (d.owl = true ∧ n = d.ident ++ dotXml)) := by
  intro ds
  induction ds with
  | nil => intro dir dir' _ h; simp only [storeDocs, Prod.mk.injEq, and_true] at h; subst h; simp
  | cons d l ih =>
    intro dir dir' hn h
    simp only [List.map_cons, List.nodup_cons] at hn
    simp only [storeDocs] at h
    cases hs : storeDoc gr dir d with
    | mk dir1 oe =>
      rw [hs] at h
      cases oe with
      | some e => cases h
      | none =>
        simp only at h
        obtain ⟨hslash, hcase⟩ := storeDoc_ok hs
        obtain ⟨h1, h2, h3, h4⟩ := ih dir1 dir' hn.2 h
        have hne : ∀ x ∈ l, d.ident ≠ x.ident := fun x hx he => hn.1 (he ▸ List.mem_map.2 ⟨x, hx, rfl⟩)
        have keepY : look dir' (d.ident ++ dotYml) = look dir1 (d.ident ++ dotYml) := h2 _ (fun x hx => ⟨fun he => hne x hx (app_yml_inj he), fun _ he => xml_ne_yml _ _ he.symm⟩)
        have keepX : look dir' (d.ident ++ dotXml) = look dir1 (d.ident ++ dotXml) := h2 _ (fun x hx => ⟨xml_ne_yml _ _, fun _ he => hne x hx (app_xml_inj he)⟩)
        refine ⟨?_, ?_, ?_, ?_⟩
        · intro x hx
          rcases List.mem_cons.1 hx with rfl | hx
          · refine ⟨hslash, ?_, ?_⟩
            · rw [keepY]
              rcases hcase with ⟨-, rfl⟩ | ⟨-, c, -, rfl⟩ <;> simp [look_put]
            · intro ho
              rcases hcase with ⟨ho', -⟩ | ⟨-, c, hc, rfl⟩
              · rw [ho] at ho'; cases ho'
              · refine ⟨c, hc, ?_⟩
                rw [keepX, look_put, if_neg (xml_ne_yml _ _), look_put]
                simp
          · exact h1 x hx
        · intro n hn2
          rw [h2 n (fun x hx => hn2 x (List.mem_cons_of_mem _ hx))]
          have hd := hn2 d List.mem_cons_self
          rcases hcase with ⟨-, rfl⟩ | ⟨ho, c, -, rfl⟩
          · rw [look_put, if_neg hd.1]
          · rw [look_put, if_neg hd.1, look_put, if_neg (hd.2 ho)]
        · intro hnd
          refine h3 ?_
          rcases hcase with ⟨-, rfl⟩ | ⟨-, c, -, rfl⟩
          · exact put_nodup _ _ hnd
          · exact put_nodup _ _ (put_nodup _ _ hnd)
        · intro n hn2
          have hk : ∀ (m : Text) (v : File B R) (q : List (Text × File B R)), n ∈ (put m v q).map (·.1) → n = m ∨ n ∈ q.map (·.1) := by
            intro m v q hq
            rw [put_keys] at hq
            split at hq
            · exact Or.inr hq
            · rcases List.mem_append.1 hq with h5 | h5
              · exact Or.inr h5
              · exact Or.inl (by simpa using h5)
          rcases h4 n hn2 with h5 | ⟨x, hx, h5⟩
          · rcases hcase with ⟨-, rfl⟩ | ⟨ho, c, -, rfl⟩
            · rcases hk _ _ _ h5 with h6 | h6
              · exact Or.inr ⟨d, List.mem_cons_self, Or.inl h6⟩
              · exact Or.inl h6
            · rcases hk _ _ _ h5 with h6 | h6
              · exact Or.inr ⟨d, List.mem_cons_self, Or.inl h6⟩
              · rcases hk _ _ _ h6 with h7 | h7
                · exact Or.inr ⟨d, List.mem_cons_self, Or.inr ⟨ho, h7⟩⟩
                · exact Or.inl h7
          · exact Or.inr ⟨x, List.mem_cons_of_mem _ hx, h5⟩

/-- Writing fails only for an RDF package whose graph is not known under its identifier, or for a name with a slash. -/
theorem storeDocs_total {gr : List (Text × R)} : ∀ (ds : List (Doc B)) (dir : List (Text × File B R)),
    (∀ d ∈ ds, '/' ∉ d.ident ∧ (d.owl = true → (look gr d.ident).isSome)) → ∃ dir', storeDocs gr dir ds = (dir', none) := by
  intro ds
  induction ds with
  | nil => exact fun dir _ => ⟨dir, rfl⟩
  | cons d l ih =>
    intro dir h
    obtain ⟨hs, ho⟩ := h d List.mem_cons_self
    have : ∃ dir1, storeDoc gr dir d = (dir1, none) := by
      unfold storeDoc
      simp only
      cases hw : d.owl with
      | false => simp only [Bool.false_eq_true, if_false, hs]; exact ⟨_, rfl⟩
      | true =>
        obtain ⟨c, hc⟩ := Option.isSome_iff_exists.1 (ho hw)
        simp only [if_true, hc, hs, if_false]
        exact ⟨_, rfl⟩
    obtain ⟨dir1, h1⟩ := this
    obtain ⟨dir2, h2⟩ := ih dir1 (fun x hx => h x (List.mem_cons_of_mem _ hx))
    exact ⟨dir2, by simp only [storeDocs, h1, h2]⟩

end Osp.Install
