import Verif.Export.Props
/-!
# C70: documents that cannot be imported
-/
namespace Osp.Export
open Osp.Cuds Osp.Search

/-- Specification: a document that is about the uid zero, which no object can have (cuds.py 74-76). -/
def Nil (d : Doc) : Prop := thisSubject d = some 0

theorem subject_first {d : Doc} {u : Uid} (h : thisSubject d = some u) : ∃ t l, d.filter (fun t => decide (t.s = u)) = t :: l ∧ t.s = u := by
  have hm : ∃ t ∈ d, t.s = u := by
    unfold thisSubject at h
    cases hf : d.find? (fun t => decide (t.p ≠ .type)) with
    | some t =>
      rw [hf] at h
      exact ⟨t, List.mem_of_find?_eq_some hf, by simpa using h⟩
    | none =>
      rw [hf] at h
      cases d with
      | nil => simp at h
      | cons t d => exact ⟨t, by simp, by simpa using h⟩
  obtain ⟨t, ht, hu⟩ := hm
  have hmem : t ∈ d.filter (fun t => decide (t.s = u)) := List.mem_filter.2 ⟨ht, by simpa using hu⟩
  cases hl : d.filter (fun t => decide (t.s = u)) with
  | nil => rw [hl] at hmem; cases hmem
  | cons x l =>
    have : x ∈ d.filter (fun t => decide (t.s = u)) := by rw [hl]; simp
    exact ⟨x, l, rfl, by simpa using (List.mem_filter.1 this).2⟩

/-- One document: refused without any effect if it is about the uid zero, otherwise imported; the uid zero never gets registered. -/
theorem one_document (O : Onto) (d : Doc) (s : Sess) (h0 : 0 ∉ s.reg) :
    (Nil d ∧ toCudsObject O s d = ⟨.error .valueError, s⟩) ∨ (¬ Nil d ∧ ∃ s', toCudsObject O s d = ⟨.ok (thisSubject d), s'⟩ ∧ 0 ∉ s'.reg) := by
  unfold toCudsObject
  cases hs : thisSubject d with
  | none => exact Or.inr ⟨by simp [Nil, hs], s, rfl, h0⟩
  | some u =>
    obtain ⟨t, l, hl, hu⟩ := subject_first hs
    simp only [hl, createFromTriples, hu]
    by_cases hz : u = 0
    · subst hz
      left
      refine ⟨hs, ?_⟩
      rw [if_neg h0, if_pos rfl]
    · right
      refine ⟨by intro hn; unfold Nil at hn; rw [hs] at hn; exact hz (Option.some.inj hn), ?_⟩
      by_cases hr : u ∈ s.reg
      · rw [if_pos hr]; exact ⟨_, rfl, h0⟩
      · rw [if_neg hr, if_neg hz]
        refine ⟨_, rfl, ?_⟩
        simp only [List.mem_append, List.mem_cons, List.not_mem_nil, or_false, not_or]
        exact ⟨h0, fun e => hz e.symm⟩

theorem import_all (O : Onto) : ∀ (ds : List Doc) (s : Sess), 0 ∉ s.reg → (∀ d ∈ ds, ¬ Nil d) → ∃ s', importDocs O ds s = ⟨.ok (ds.map thisSubject), s'⟩ ∧ 0 ∉ s'.reg := by
  intro ds
  induction ds with
  | nil => intro s h0 _; exact ⟨s, rfl, h0⟩
  | cons d ds ih =>
    intro s h0 hd
    rcases one_document O d s h0 with ⟨h, _⟩ | ⟨_, s', h1, h2⟩
    · exact absurd h (hd d (by simp))
    · obtain ⟨s'', h3, h4⟩ := ih s' h2 (fun x hx => hd x (by simp [hx]))
      exact ⟨s'', by simp only [importDocs, h1, h3, List.map_cons], h4⟩

/-- **C70.** An import, of whatever documents into whatever session, fails exactly if one of them is about the uid zero. -/
theorem import_refused_iff (O : Onto) (ds : List Doc) (s : Sess) (h0 : 0 ∉ s.reg) :
    (∃ e, (importDocs O ds s).res = .error e) ↔ ∃ d ∈ ds, Nil d := by
  constructor
  · rintro ⟨e, he⟩
    apply Classical.byContradiction
    intro hn
    obtain ⟨s', h1, _⟩ := import_all O ds s h0 (fun d hd hz => hn ⟨d, hd, hz⟩)
    rw [h1] at he; cases he
  · rintro ⟨d, hd, hz⟩
    induction ds generalizing s with
    | nil => cases hd
    | cons x ds ih =>
      simp only [importDocs]
      rcases one_document O x s h0 with ⟨_, h⟩ | ⟨hx, s', h1, h2⟩
      · rw [h]; exact ⟨_, rfl⟩
      · rw [h1]
        simp only
        rcases List.mem_cons.1 hd with rfl | hd
        · exact absurd hz hx
        · obtain ⟨e, he⟩ := ih s' h2 hd
          rcases hi : importDocs O ds s' with ⟨r, s''⟩
          rw [hi] at he
          cases he
          exact ⟨_, rfl⟩

/-- **C70.** A failing import raises ValueError at the first such document: what comes before it was imported and stays, what comes after it is not looked at. -/
theorem import_stops_at_error (O : Onto) (a : List Doc) (d : Doc) (b : List Doc) (s : Sess) (h0 : 0 ∉ s.reg) (ha : ∀ x ∈ a, ¬ Nil x) (hd : Nil d) :
    importDocs O (a ++ d :: b) s = ⟨.error .valueError, (importDocs O a s).st⟩ := by
  induction a generalizing s with
  | nil =>
    simp only [List.nil_append, importDocs]
    rcases one_document O d s h0 with ⟨_, h⟩ | ⟨h, _⟩
    · rw [h]
    · exact absurd hd h
  | cons x a ih =>
    simp only [List.cons_append, importDocs]
    rcases one_document O x s h0 with ⟨h, _⟩ | ⟨_, s', h1, h2⟩
    · exact absurd h (ha x (by simp))
    · rw [h1]
      simp only
      rw [ih s' h2 (fun y hy => ha y (by simp [hy]))]
      obtain ⟨s'', h3, _⟩ := import_all O a s' h2 (fun y hy => ha y (by simp [hy]))
      rw [h3]

/-- Two documents around one that is refused: the first is imported. -/
example : importDocs exOnto [[⟨1, .type, .cls 5⟩], [⟨0, .type, .cls 5⟩], [⟨2, .type, .cls 5⟩]] {} = ⟨.error .valueError, { g := [⟨1, .type, .cls 5⟩], reg := [1], root := some 1 }⟩ := rfl
example : Nil [⟨0, .type, .cls 5⟩] ∧ ¬ Nil [⟨1, .type, .cls 5⟩] := by
  constructor
  · rfl
  · intro h; cases h

end Osp.Export
