import Verif.Copy.Model
import Verif.Store.Loop
/-! Copies hold exactly the triples of the object and the types of its neighbours, in the order of the session. -/
namespace Osp.Copy
open Osp.Cuds Osp.Store

variable {E : Order} {O : Onto}

theorem foldl_add_filter (p : Triple → Bool) (l : List Triple) (g : Graph) :
    (l.foldl Graph.add g).filter p = (l.filter p).foldl Graph.add (g.filter p) := by
  induction l generalizing g with
  | nil => rfl
  | cons t l ih =>
    simp only [List.foldl_cons]
    rw [ih]
    by_cases hp : p t
    · rw [List.filter_cons_of_pos hp, List.foldl_cons]
      congr 1
      unfold Graph.add
      by_cases ht : t ∈ g
      · rw [if_pos ht, if_pos (List.mem_filter.2 ⟨ht, hp⟩)]
      · rw [if_neg ht, if_neg (fun h => ht (List.mem_filter.1 h).1)]
        simp [List.filter_append, hp]
    · rw [List.filter_cons_of_neg hp]
      congr 1
      unfold Graph.add
      by_cases ht : t ∈ g
      · rw [if_pos ht]
      · rw [if_neg ht]
        simp [List.filter_append, hp]

theorem foldl_add_known (l : List Triple) (g : Graph) (h : ∀ t ∈ l, t ∈ g) : l.foldl Graph.add g = g := by
  induction l with
  | nil => rfl
  | cons t l ih =>
    simp only [List.foldl_cons]
    rw [show Graph.add g t = g from if_pos (h t (by simp))]
    exact ih fun t' ht' => h t' (List.mem_cons_of_mem _ ht')

theorem foldl_add_new (l : List Triple) (g : Graph) (h : (g ++ l).Nodup) : l.foldl Graph.add g = g ++ l := by
  induction l generalizing g with
  | nil => simp
  | cons t l ih =>
    simp only [List.foldl_cons]
    have ht : t ∉ g := by
      intro hm
      rw [List.nodup_append] at h
      exact h.2.2 t hm t (by simp) rfl
    rw [show Graph.add g t = g ++ [t] from if_neg ht, ih]
    · simp
    · simpa using h

/-- The triples of the object itself are in the copy, in the same order. -/
theorem copy_own {g : Graph} (hn : g.Nodup) (u : Uid) : (copy g u).g.triples (some u) none none = g.triples (some u) none none := by
  have hfun : (fun t : Triple => t.matchesPat (some u) none none) = fun t => decide (u = t.s) := by
    funext t
    simp [Triple.matchesPat]
  unfold copy Graph.triples
  simp only
  rw [hfun, foldl_add_filter]
  unfold getTriples Graph.triples
  simp only
  rw [hfun, List.filter_append, List.foldl_append]
  have h1 : (g.filter fun t => decide (u = t.s)).filter (fun t => decide (u = t.s)) = g.filter fun t => decide (u = t.s) := by
    simp [List.filter_filter]
  rw [h1]
  have h2 : List.foldl Graph.add (List.filter (fun t => decide (u = t.s)) []) (g.filter fun t => decide (u = t.s)) = g.filter fun t => decide (u = t.s) := by
    have := foldl_add_new (g.filter fun t => decide (u = t.s)) [] (by rw [List.nil_append]; exact hn.filter _)
    simpa using this
  rw [h2]
  apply foldl_add_known
  intro t ht
  rw [List.mem_filter, List.mem_flatMap] at ht
  obtain ⟨⟨o, ho, ht⟩, hs⟩ := ht
  rw [List.mem_filter]
  refine ⟨?_, hs⟩
  split at ht
  · exact (List.mem_filter.1 ht).1
  · cases ht

/-- So is every pattern with the object as its subject. -/
theorem copy_own_pat {g : Graph} (hn : g.Nodup) (u : Uid) (p : Option Pred) (o : Option Obj) :
    (copy g u).g.triples (some u) p o = g.triples (some u) p o := by
  have h : ∀ g : Graph, g.triples (some u) p o = (g.triples (some u) none none).filter fun t => t.matchesPat (some u) p o := by
    intro g
    unfold Graph.triples
    rw [List.filter_filter]
    congr 1
    funext t
    simp [Triple.matchesPat]
    intro h1 h2 h3
    exact h1
  rw [h, copy_own hn, ← h]

/-- Flattening a list in which only one element, once, has a result. -/
theorem flatMap_single {α β : Type} [DecidableEq α] (f : α → List β) (x : α) (l : List α) (hn : l.Nodup) (hx : x ∈ l) (h : ∀ y ∈ l, y ≠ x → f y = []) :
    l.flatMap f = f x := by
  induction l with
  | nil => cases hx
  | cons y l ih =>
    rw [List.flatMap_cons]
    rw [List.nodup_cons] at hn
    by_cases hy : y = x
    · subst hy
      have : l.flatMap f = [] := by
        rw [List.flatMap_eq_nil_iff]
        intro z hz
        exact h z (List.mem_cons_of_mem _ hz) fun e => hn.1 (e ▸ hz)
      rw [this, List.append_nil]
    · rw [h y (by simp) hy, List.nil_append]
      exact ih hn.2 ((List.mem_cons.1 hx).resolve_left fun e => hy e.symm) fun z hz => h z (List.mem_cons_of_mem _ hz)

/-- The types of the neighbours are in the copy, in the same order. -/
theorem copy_types {g : Graph} (hn : g.Nodup) (u x : Uid) (r : Rel) (hx : (⟨u, .rel r, .cuds x⟩ : Triple) ∈ g) :
    (copy g u).g.triples (some x) (some .type) none = g.triples (some x) (some .type) none := by
  by_cases hxu : x = u
  · subst hxu
    exact copy_own_pat hn x _ _
  · have hpat : ∀ t : Triple, t.matchesPat (some x) (some .type) none = (decide (x = t.s) && decide (Pred.type = t.p)) := by
      intro t; simp [Triple.matchesPat]
    unfold copy
    simp only
    rw [show ∀ h : Graph, h.triples (some x) (some .type) none = h.filter fun t => t.matchesPat (some x) (some .type) none from fun _ => rfl]
    rw [foldl_add_filter]
    unfold getTriples
    simp only
    rw [List.filter_append]
    have h1 : (g.triples (some u) none none).filter (fun t => t.matchesPat (some x) (some .type) none) = [] := by
      rw [List.filter_eq_nil_iff]
      intro t ht hm
      have hs := (matchesPat_iff.1 (mem_gtriples.1 ht).2).1 u rfl
      have hs' := (matchesPat_iff.1 hm).1 x rfl
      exact hxu (hs'.trans hs.symm)
    rw [h1, List.nil_append, List.filter_flatMap]
    rw [flatMap_single _ (Obj.cuds x) _ (nodup_dedup _)]
    · simp only
      have h2 : (g.triples (some x) (some .type) none).filter (fun t => t.matchesPat (some x) (some .type) none) = g.triples (some x) (some .type) none := by
        rw [List.filter_eq_self]
        intro t ht
        exact (mem_gtriples.1 ht).2
      rw [h2]
      have := foldl_add_new (g.triples (some x) (some .type) none) [] (by rw [List.nil_append]; exact hn.filter _)
      simpa using this
    · rw [mem_dedup, List.mem_map]
      exact ⟨_, mem_gtriples.2 ⟨hx, by rw [matchesPat_iff]; simp⟩, rfl⟩
    · intro o _ ho
      rw [List.filter_eq_nil_iff]
      intro t ht hm
      split at ht
      · rename_i y _
        have hs := (matchesPat_iff.1 (mem_gtriples.1 ht).2).1 _ rfl
        have hs' := (matchesPat_iff.1 hm).1 x rfl
        apply ho
        rw [hs, hs']
      · cases ht

end Osp.Copy
