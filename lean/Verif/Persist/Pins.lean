import Verif.Persist.Props
/-!
# Objects with literals that cannot be read (C85)
-/
namespace Osp.Persist
open Osp.Tables

variable {D V : Type} [DecidableEq D] [DecidableEq V]

/-- **C85.** If a literal in the triples of an object, or in the type triples of its neighbours, looks like a uid and cannot be read, loading the object raises that exception. -/
theorem fetch_error (E : Env D V) (root u : Uid) (st st' : St D V) (a n : List (Triple D V)) (e : PyErr)
    (h : loadTriples E.toOnto (if u = root then 0 else u) st = (.ok (a, n), st')) (hs : subst E 0 root a = .error e ∨ ((∃ x, subst E 0 root a = .ok x) ∧ subst E 0 root n = .error e)) :
    fetch E root u st = (.error e, st') := by
  unfold fetch
  rw [h]
  dsimp only
  rcases hs with hs | ⟨⟨x, hx⟩, hs⟩
  · rw [hs]
  · rw [hx]
    dsimp only
    rw [hs]

/-- **C85**: the first class that cannot be loaded stops the loading of the following ones, and its exception is raised. -/
theorem loadByOclasses_stops {D V : Type} [DecidableEq D] [DecidableEq V] (E : Env D V) (pre post : List Iri) (c : Iri) (s s1 s2 : Ses D V) (st st1 st2 : St D V) (xs : List (Option Uid)) (e : PyErr)
    (h1 : loadByOclasses E pre s st = (.ok xs, s1, st1)) (h2 : loadByOclass E c s1 st1 = (.error e, s2, st2)) :
    loadByOclasses E (pre ++ c :: post) s st = (.error e, s2, st2) := by
  induction pre generalizing s st xs with
  | nil =>
    simp only [loadByOclasses, Prod.mk.injEq] at h1
    obtain ⟨_, rfl, rfl⟩ := h1
    simp only [List.nil_append, loadByOclasses, h2]
  | cons d ds ih =>
    simp only [List.cons_append, loadByOclasses] at h1 ⊢
    split at h1
    · simp at h1
    · rename_i ys s' st' hd
      split at h1
      · simp at h1
      · rename_i zs s'' st'' hds
        simp only [Prod.mk.injEq] at h1
        obtain ⟨_, rfl, rfl⟩ := h1
        rw [ih s' st' zs hds]

end Osp.Persist
