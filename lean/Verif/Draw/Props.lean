import Verif.Draw.Model
import Verif.Search.Props
/-!
# C83: the drawing of an ontology
-/
namespace Osp.Draw
open Osp.Search

/-! ## Specification -/

/-- Specification: the entities with a node, in order. -/
def nodes (out : List Stmt) : List Ent := out.filterMap fun s => match s with
  | .node _ e _ => some e
  | _ => none

/-- Specification: the `is_a` edges. -/
def isAs (out : List Stmt) : List (Ent × Ent) := out.filterMap fun s => match s with
  | .isA e f => some (e, f)
  | _ => none

/-- Specification: the `inverse` edges. -/
def invs (out : List Stmt) : List (Ent × Ent) := out.filterMap fun s => match s with
  | .inverse e f => some (e, f)
  | _ => none

/-- Specification: drawing the first entity calls for the second one: a direct superclass, or the inverse of a relationship that has a name of its own. -/
def Needs (O : Ontology) (e f : Ent) : Prop := f ∈ O.supers e ∨ O.kind e = .rel ∧ f = O.inverse e ∧ O.automatic f = false

/-! ## Lemmas -/

@[simp] theorem nodes_append (a b : List Stmt) : nodes (a ++ b) = nodes a ++ nodes b := List.filterMap_append
@[simp] theorem isAs_append (a b : List Stmt) : isAs (a ++ b) = isAs a ++ isAs b := List.filterMap_append
@[simp] theorem invs_append (a b : List Stmt) : invs (a ++ b) = invs a ++ invs b := List.filterMap_append

/-- The inverse edges for entities that are drawn in this order, after `prev`. -/
def pairs (O : Ontology) : List Ent → List Ent → List (Ent × Ent)
  | _, [] => []
  | prev, e :: es =>
    (if O.kind e = .rel && !O.automatic (O.inverse e) && !((prev ++ [e]).contains (O.inverse e)) then [(e, O.inverse e)] else []) ++ pairs O (prev ++ [e]) es

theorem pairs_append (O : Ontology) (prev a b : List Ent) : pairs O prev (a ++ b) = pairs O prev a ++ pairs O (prev ++ a) b := by
  induction a generalizing prev with
  | nil => simp [pairs]
  | cons e a ih => simp only [List.cons_append, pairs, ih, List.append_assoc, List.nil_append]

/-- The `is_a` edges of an entity. -/
def upEdges (O : Ontology) (e : Ent) : List (Ent × Ent) := (O.supers e).map fun f => (e, f)

/-- The drawing has grown by nodes and edges. -/
structure Grown (O : Ontology) (P : Par) (st st' : St) (new : List Ent) (ia iv : List (Ent × Ent)) : Prop where
  vis : st'.visited = st.visited ++ new
  out : ∃ o, st'.out = st.out ++ o ∧ nodes o = new ∧ (isAs o).Perm ia ∧ (invs o).Perm iv ∧
    ∀ c e b, Stmt.node c e b ∈ o → c = (if P.group then some (O.ns e) else none) ∧ b = decide (O.ns e ∈ P.requested)
  clusters : ∀ n, n ∈ st'.clusters ↔ n ∈ st.clusters ∨ P.group = true ∧ ∃ z ∈ new, O.ns z = n
  nodup : st.clusters.Nodup → st'.clusters.Nodup

variable {O : Ontology} {P : Par}

theorem Grown.refl (st : St) : Grown O P st st [] [] [] :=
  ⟨by simp, ⟨[], by simp [nodes, isAs, invs]⟩, by simp, id⟩

theorem Grown.trans {st st1 st2 : St} {a b : List Ent} {ia ia' iv iv' : List (Ent × Ent)} (h : Grown O P st st1 a ia iv) (h' : Grown O P st1 st2 b ia' iv') :
    Grown O P st st2 (a ++ b) (ia ++ ia') (iv ++ iv') := by
  obtain ⟨o, o1, o2, o3, o4, o5⟩ := h.out
  obtain ⟨p, p1, p2, p3, p4, p5⟩ := h'.out
  refine ⟨by rw [h'.vis, h.vis, List.append_assoc], ⟨o ++ p, by rw [p1, o1, List.append_assoc], by simp [o2, p2], ?_, ?_, ?_⟩, ?_, h'.nodup ∘ h.nodup⟩
  · rw [isAs_append]; exact o3.append p3
  · rw [invs_append]; exact o4.append p4
  · intro c e b hm
    rcases List.mem_append.1 hm with hm | hm
    · exact o5 c e b hm
    · exact p5 c e b hm
  · intro n
    rw [h'.clusters, h.clusters]
    simp only [List.mem_append]
    constructor
    · rintro ((h | ⟨g, z, hz, e⟩) | ⟨g, z, hz, e⟩)
      · exact Or.inl h
      · exact Or.inr ⟨g, z, Or.inl hz, e⟩
      · exact Or.inr ⟨g, z, Or.inr hz, e⟩
    · rintro (h | ⟨g, z, hz | hz, e⟩)
      · exact Or.inl (Or.inl h)
      · exact Or.inl (Or.inr ⟨g, z, hz, e⟩)
      · exact Or.inr ⟨g, z, hz, e⟩

theorem Grown.perm {st st' : St} {a : List Ent} {ia ia' iv iv' : List (Ent × Ent)} (h : Grown O P st st' a ia iv) (h1 : ia.Perm ia') (h2 : iv.Perm iv') :
    Grown O P st st' a ia' iv' := by
  obtain ⟨o, o1, o2, o3, o4, o5⟩ := h.out
  exact ⟨h.vis, ⟨o, o1, o2, o3.trans h1, o4.trans h2, o5⟩, h.clusters, h.nodup⟩

theorem grown_isA (st : St) (e f : Ent) : Grown O P st { st with out := st.out ++ [.isA e f] } [] [(e, f)] [] :=
  ⟨by simp, ⟨[.isA e f], rfl, rfl, .refl _, .refl _, by simp⟩, by simp, id⟩

theorem grown_inverse (st : St) (e f : Ent) : Grown O P st { st with out := st.out ++ [.inverse e f] } [] [] [(e, f)] :=
  ⟨by simp, ⟨[.inverse e f], rfl, rfl, .refl _, .refl _, by simp⟩, by simp, id⟩

theorem grown_node (st : St) (e : Ent) : Grown O P st (addNode O P e { st with visited := st.visited ++ [e] }) [e] [] [] := by
  unfold addNode getSubgraph
  cases hg : P.group with
  | false =>
    refine ⟨rfl, ⟨[.node none e (O.ns e ∈ P.requested)], rfl, rfl, .refl _, .refl _, ?_⟩, by simp [hg], id⟩
    intro c e' b h
    simp only [List.mem_cons, Stmt.node.injEq, List.not_mem_nil, or_false] at h
    obtain ⟨rfl, rfl, rfl⟩ := h
    simp [hg]
  | true =>
    simp only [Bool.not_true, Bool.false_eq_true, if_false]
    by_cases hc : O.ns e ∈ st.clusters
    · rw [if_pos hc]
      refine ⟨rfl, ⟨[.node (some (O.ns e)) e (O.ns e ∈ P.requested)], rfl, rfl, .refl _, .refl _, ?_⟩, ?_, id⟩
      · intro c e' b h
        simp only [List.mem_cons, Stmt.node.injEq, List.not_mem_nil, or_false] at h
        obtain ⟨rfl, rfl, rfl⟩ := h
        simp [hg]
      · intro n
        simp only [List.mem_cons, List.not_mem_nil, or_false, exists_eq_left, true_and, hg]
        exact ⟨Or.inl, fun h => h.elim id (fun h => h ▸ hc)⟩
    · rw [if_neg hc]
      refine ⟨rfl, ⟨[.node (some (O.ns e)) e (O.ns e ∈ P.requested)], rfl, rfl, .refl _, .refl _, ?_⟩, ?_, ?_⟩
      · intro c e' b h
        simp only [List.mem_cons, Stmt.node.injEq, List.not_mem_nil, or_false] at h
        obtain ⟨rfl, rfl, rfl⟩ := h
        simp [hg]
      · intro n
        simp only [List.mem_append, List.mem_cons, List.not_mem_nil, or_false, exists_eq_left, true_and, hg]
        exact ⟨fun h => h.imp id Eq.symm, fun h => h.imp id Eq.symm⟩
      · intro hn
        exact List.nodup_append.2 ⟨hn, by simp, fun a ha b hb => by simp only [List.mem_cons, List.not_mem_nil, or_false] at hb; subst hb; rintro rfl; exact hc ha⟩

/-- What drawing an entity achieves. -/
structure Drew (O : Ontology) (P : Par) (e : Ent) (st st' : St) (new : List Ent) : Prop where
  grown : Grown O P st st' new (new.flatMap (upEdges O)) (pairs O st.visited new)
  fresh : st.visited.Nodup → st'.visited.Nodup
  done : e ∈ st'.visited
  sound : ∀ z ∈ new, Relation.ReflTransGen (Needs O) e z
  closed : ∀ z ∈ new, ∀ w, Needs O z w → w ∈ st'.visited

theorem Drew.sub {e : Ent} {st st' : St} {new : List Ent} (h : Drew O P e st st' new) {x : Ent} (hx : x ∈ st.visited) : x ∈ st'.visited := by
  rw [h.grown.vis]; exact List.mem_append_left _ hx

theorem perm_of_count {a b : List (Ent × Ent)} (h : ∀ x, a.count x = b.count x) : a.Perm b := List.perm_iff_count.2 h

theorem addSupers_drew (rec : Ent → St → Option St) (e : Ent) (hrec : ∀ f st st', rec f st = some st' → ∃ new, Drew O P f st st' new)
    (fs : List Ent) (hfs : ∀ f ∈ fs, Needs O e f) (st st' : St) (h : addSupers rec e fs st = some st') :
    ∃ new, Grown O P st st' new (fs.map (fun f => (e, f)) ++ new.flatMap (upEdges O)) (pairs O st.visited new) ∧
      (st.visited.Nodup → st'.visited.Nodup) ∧ (∀ f ∈ fs, f ∈ st'.visited) ∧
      (∀ z ∈ new, Relation.ReflTransGen (Needs O) e z) ∧ ∀ z ∈ new, ∀ w, Needs O z w → w ∈ st'.visited := by
  induction fs generalizing st with
  | nil =>
    simp only [addSupers, Option.some.injEq] at h
    subst h
    exact ⟨[], by simpa [pairs] using Grown.refl st, id, by simp, by simp, by simp⟩
  | cons f fs ih =>
    unfold addSupers at h
    cases hr : rec f st with
    | none => rw [hr] at h; cases h
    | some st1 =>
      rw [hr] at h
      obtain ⟨n1, d⟩ := hrec f st st1 hr
      obtain ⟨n2, g, k1, k2, k3, k4⟩ := ih (fun f hf => hfs f (List.mem_cons_of_mem _ hf)) _ h
      have g2 := (d.grown.trans (grown_isA st1 e f)).trans g
      have hsub : ∀ x ∈ st1.visited, x ∈ st'.visited := by
        intro x hx; rw [g.vis]; exact List.mem_append_left _ hx
      refine ⟨n1 ++ n2, ?_, fun hn => k1 (d.fresh hn), ?_, ?_, ?_⟩
      · rw [List.append_nil] at g2
        refine g2.perm (perm_of_count fun x => ?_) ?_
        · simp only [List.map_cons, List.flatMap_append, List.count_append, List.count_cons, List.count_nil]
          omega
        · rw [pairs_append, d.grown.vis, List.append_nil]
      · intro f' hf'
        rcases List.mem_cons.1 hf' with rfl | hf'
        · exact hsub _ d.done
        · exact k2 f' hf'
      · intro z hz
        rcases List.mem_append.1 hz with hz | hz
        · exact Relation.ReflTransGen.head (hfs f (by simp)) (d.sound z hz)
        · exact k3 z hz
      · intro z hz w hw
        rcases List.mem_append.1 hz with hz | hz
        · exact hsub _ (d.closed z hz w hw)
        · exact k4 z hz w hw

theorem addEntity_drew (fuel : Nat) (e : Ent) (st st' : St) (h : addEntity O P fuel e st = some st') : ∃ new, Drew O P e st st' new := by
  induction fuel generalizing e st st' with
  | zero => cases h
  | succ fuel ih =>
    unfold addEntity at h
    by_cases hv : e ∈ st.visited
    · rw [if_pos hv] at h
      cases h
      exact ⟨[], by simpa [pairs] using Grown.refl st, id, hv, by simp, by simp⟩
    · rw [if_neg hv] at h
      have g0 := grown_node (O := O) (P := P) st e
      generalize addNode O P e { st with visited := st.visited ++ [e] } = st0 at h g0
      have hn0 : st.visited.Nodup → st0.visited.Nodup := by
        intro hn
        rw [g0.vis]
        exact List.nodup_append.2 ⟨hn, by simp, fun a ha b hb => by simp only [List.mem_cons, List.not_mem_nil, or_false] at hb; subst hb; rintro rfl; exact hv ha⟩
      -- the inverse
      have hinv : ∀ st1, addInverse O (addEntity O P fuel) e st0 = some st1 → ∃ new, Grown O P st0 st1 new (new.flatMap (upEdges O))
          ((if O.kind e = .rel && !O.automatic (O.inverse e) && !((st.visited ++ [e]).contains (O.inverse e)) then [(e, O.inverse e)] else []) ++
            pairs O st0.visited new) ∧
          (st0.visited.Nodup → st1.visited.Nodup) ∧ (O.kind e = .rel ∧ O.automatic (O.inverse e) = false → O.inverse e ∈ st1.visited) ∧
          (∀ z ∈ new, Relation.ReflTransGen (Needs O) e z) ∧ ∀ z ∈ new, ∀ w, Needs O z w → w ∈ st1.visited := by
        intro st1 h1
        unfold addInverse at h1
        rw [g0.vis] at h1
        split at h1
        · rename_i hc
          rw [if_pos hc]
          simp only [Bool.and_eq_true, decide_eq_true_eq, Bool.not_eq_true'] at hc
          cases hr : addEntity O P fuel (O.inverse e) st0 with
          | none => rw [hr] at h1; cases h1
          | some st2 =>
            rw [hr] at h1
            cases h1
            obtain ⟨n, d⟩ := ih _ _ _ hr
            refine ⟨n, ?_, d.fresh, fun _ => d.done, fun z hz => Relation.ReflTransGen.head (Or.inr ⟨hc.1.1, rfl, hc.1.2⟩) (d.sound z hz), d.closed⟩
            have g := d.grown.trans (grown_inverse st2 e (O.inverse e))
            rw [List.append_nil, List.append_nil] at g
            exact g.perm (.refl _) (perm_of_count fun x => by simp only [List.count_append]; omega)
        · rename_i hc
          rw [if_neg hc]
          cases h1
          refine ⟨[], by simpa [pairs] using Grown.refl st0, id, ?_, by simp, by simp⟩
          rintro ⟨k1, k2⟩
          simp only [k1, k2, decide_true, Bool.not_false, Bool.and_self, Bool.true_and, Bool.not_eq_true', Bool.not_eq_false] at hc
          rw [g0.vis]
          exact List.contains_iff_mem.1 hc
      cases hI : addInverse O (addEntity O P fuel) e st0 with
      | none => rw [hI] at h; cases h
      | some st1 =>
        rw [hI] at h
        obtain ⟨n1, g1, i1, i2, i3, i4⟩ := hinv st1 hI
        obtain ⟨n2, g2, j1, j2, j3, j4⟩ := addSupers_drew (addEntity O P fuel) e (fun f s s' hh => ih f s s' hh) (O.supers e) (fun f hf => Or.inl hf) st1 st' h
        have hsub1 : ∀ x ∈ st1.visited, x ∈ st'.visited := by
          intro x hx; rw [g2.vis]; exact List.mem_append_left _ hx
        have hsub0 : ∀ x ∈ st0.visited, x ∈ st'.visited := by
          intro x hx; refine hsub1 x ?_; rw [g1.vis]; exact List.mem_append_left _ hx
        have g := (g0.trans g1).trans g2
        refine ⟨[e] ++ n1 ++ n2, g.perm (perm_of_count fun x => ?_) (perm_of_count fun x => ?_), fun hn => j1 (i1 (hn0 hn)), ?_, ?_, ?_⟩
        · simp only [List.flatMap_append, List.flatMap_cons, List.flatMap_nil, List.append_nil, List.nil_append, List.count_append, upEdges]
          omega
        · have e1 : st.visited ++ ([e] ++ n1) = st1.visited := by rw [g1.vis, g0.vis, List.append_assoc]
          rw [pairs_append, pairs_append, e1]
          simp only [pairs, List.append_nil, List.nil_append, List.count_append, ← g0.vis]
        · refine hsub0 e ?_; rw [g0.vis]; simp
        · intro z hz
          rcases List.mem_append.1 hz with hz | hz
          · rcases List.mem_append.1 hz with hz | hz
            · simp only [List.mem_cons, List.not_mem_nil, or_false] at hz
              subst hz; exact .refl
            · exact i3 z hz
          · exact j3 z hz
        · intro z hz w hw
          rcases List.mem_append.1 hz with hz | hz
          · rcases List.mem_append.1 hz with hz | hz
            · simp only [List.mem_cons, List.not_mem_nil, or_false] at hz
              subst hz
              rcases hw with hw | ⟨k1, rfl, k2⟩
              · exact j2 w hw
              · exact hsub1 _ (i2 ⟨k1, k2⟩)
            · exact hsub1 _ (i4 z hz w hw)
          · exact j4 z hz w hw

/-! ## Termination -/

theorem addSupers_some (rec : Ent → St → Option St) (e : Ent) (V : List Ent)
    (hrec : ∀ f st, f ∈ O.supers e → (∀ x ∈ V, x ∈ st.visited) → ∃ st', rec f st = some st' ∧ ∀ x ∈ V, x ∈ st'.visited)
    (fs : List Ent) (hfs : ∀ f ∈ fs, f ∈ O.supers e) (st : St) (hV : ∀ x ∈ V, x ∈ st.visited) : ∃ st', addSupers rec e fs st = some st' := by
  induction fs generalizing st with
  | nil => exact ⟨st, rfl⟩
  | cons f fs ih =>
    obtain ⟨st1, h1, h2⟩ := hrec f st (hfs f (by simp)) hV
    unfold addSupers
    rw [h1]
    exact ih (fun f hf => hfs f (List.mem_cons_of_mem _ hf)) _ h2

theorem addEntity_some (U : List Ent) (hU : ∀ x ∈ U, ∀ y, Needs O x y → y ∈ U) (fuel : Nat) (e : Ent) (he : e ∈ U) (st : St)
    (hf : left U st.visited + 1 ≤ fuel) : ∃ st', addEntity O P fuel e st = some st' := by
  induction fuel generalizing e st with
  | zero => omega
  | succ fuel ih =>
    unfold addEntity
    by_cases hv : e ∈ st.visited
    · exact ⟨st, by rw [if_pos hv]⟩
    · rw [if_neg hv]
      have g0 := grown_node (O := O) (P := P) st e
      generalize addNode O P e { st with visited := st.visited ++ [e] } = st0 at g0
      have hl : ∀ st1 : St, (∀ x ∈ st0.visited, x ∈ st1.visited) → left U st1.visited + 1 ≤ fuel := by
        intro st1 h1
        have : left U st1.visited < left U st.visited :=
          left_lt (fun x hx => h1 x (by rw [g0.vis]; simp [hx])) he hv (h1 e (by rw [g0.vis]; simp))
        omega
      have hrec : ∀ f st1, Needs O e f → (∀ x ∈ st0.visited, x ∈ st1.visited) →
          ∃ st', addEntity O P fuel f st1 = some st' ∧ ∀ x ∈ st0.visited, x ∈ st'.visited := by
        intro f st1 hn h1
        obtain ⟨st', h2⟩ := ih f (hU e he f hn) st1 (hl st1 h1)
        obtain ⟨n, d⟩ := addEntity_drew _ _ _ _ h2
        exact ⟨st', h2, fun x hx => d.sub (h1 x hx)⟩
      have hinv : ∃ st1, addInverse O (addEntity O P fuel) e st0 = some st1 ∧ ∀ x ∈ st0.visited, x ∈ st1.visited := by
        unfold addInverse
        split
        · rename_i hc
          simp only [Bool.and_eq_true, decide_eq_true_eq, Bool.not_eq_true'] at hc
          obtain ⟨st', h2, h3⟩ := hrec (O.inverse e) st0 (Or.inr ⟨hc.1.1, rfl, hc.1.2⟩) (fun _ h => h)
          rw [h2]
          exact ⟨_, rfl, h3⟩
        · exact ⟨st0, rfl, fun _ h => h⟩
      obtain ⟨st1, h1, h2⟩ := hinv
      rw [h1]
      exact addSupers_some (O := O) _ e st0.visited (fun f st hf hs => hrec f st (Or.inl hf) hs) _ (fun _ h => h) st1 h2

theorem addAll_drew (es : List Ent) (fuel : Nat) (st st' : St) (h : addAll O P fuel es st = some st') :
    ∃ new, Grown O P st st' new (new.flatMap (upEdges O)) (pairs O st.visited new) ∧ (st.visited.Nodup → st'.visited.Nodup) ∧ (∀ e ∈ es, e ∈ st'.visited) ∧
      (∀ z ∈ new, ∃ e ∈ es, Relation.ReflTransGen (Needs O) e z) ∧ ∀ z ∈ new, ∀ w, Needs O z w → w ∈ st'.visited := by
  induction es generalizing st with
  | nil =>
    simp only [addAll, Option.some.injEq] at h
    subst h
    exact ⟨[], by simpa [pairs] using Grown.refl st, id, by simp, by simp, by simp⟩
  | cons e es ih =>
    unfold addAll at h
    cases hr : addEntity O P fuel e st with
    | none => rw [hr] at h; cases h
    | some st1 =>
      rw [hr] at h
      obtain ⟨n1, d⟩ := addEntity_drew _ _ _ _ hr
      obtain ⟨n2, g, k1, k2, k3, k4⟩ := ih st1 h
      have hsub : ∀ x ∈ st1.visited, x ∈ st'.visited := by
        intro x hx; rw [g.vis]; exact List.mem_append_left _ hx
      refine ⟨n1 ++ n2, ?_, fun hn => k1 (d.fresh hn), ?_, ?_, ?_⟩
      · rw [pairs_append, List.flatMap_append, ← d.grown.vis]
        exact d.grown.trans g
      · intro f hf
        rcases List.mem_cons.1 hf with rfl | hf
        · exact hsub _ d.done
        · exact k2 f hf
      · intro z hz
        rcases List.mem_append.1 hz with hz | hz
        · exact ⟨e, by simp, d.sound z hz⟩
        · obtain ⟨f, hf, h⟩ := k3 z hz
          exact ⟨f, by simp [hf], h⟩
      · intro z hz w hw
        rcases List.mem_append.1 hz with hz | hz
        · exact hsub _ (d.closed z hz w hw)
        · exact k4 z hz w hw

theorem addAll_some (U : List Ent) (hU : ∀ x ∈ U, ∀ y, Needs O x y → y ∈ U) (fuel : Nat) (es : List Ent) (he : ∀ e ∈ es, e ∈ U) (hf : U.length + 1 ≤ fuel)
    (st : St) : ∃ st', addAll O P fuel es st = some st' := by
  induction es generalizing st with
  | nil => exact ⟨st, rfl⟩
  | cons e es ih =>
    obtain ⟨st1, h1⟩ := addEntity_some (P := P) U hU fuel e (he e (by simp)) st (by have := left_le U st.visited; omega)
    unfold addAll
    rw [h1]
    exact ih (fun e h => he e (List.mem_cons_of_mem _ h)) st1

/-! ## Inverse edges -/

theorem mem_pairs {prev l : List Ent} {e f : Ent} : (e, f) ∈ pairs O prev l ↔
    ∃ a b, l = a ++ e :: b ∧ O.kind e = .rel ∧ f = O.inverse e ∧ O.automatic f = false ∧ f ∉ prev ++ a ∧ f ≠ e := by
  induction l generalizing prev with
  | nil => simp [pairs]
  | cons x l ih =>
    unfold pairs
    rw [List.mem_append, ih]
    constructor
    · rintro (h | ⟨a, b, rfl, h1, h2, h3, h4, h5⟩)
      · split at h
        · rename_i hc
          simp only [Bool.and_eq_true, decide_eq_true_eq, Bool.not_eq_true', List.mem_cons, Prod.mk.injEq, List.not_mem_nil, or_false] at hc h
          obtain ⟨rfl, rfl⟩ := h
          have hn : O.inverse e ∉ prev ++ [e] := fun hm => by rw [List.contains_iff_mem.2 hm] at hc; exact absurd hc.2 (by simp)
          simp only [List.mem_append, List.mem_cons, List.not_mem_nil, or_false, not_or] at hn
          exact ⟨[], l, rfl, hc.1.1, rfl, hc.1.2, by simpa using hn.1, hn.2⟩
        · cases h
      · exact ⟨x :: a, b, rfl, h1, h2, h3, by simpa using h4, h5⟩
    · rintro ⟨a, b, hl, h1, h2, h3, h4, h5⟩
      cases a with
      | nil =>
        rw [List.nil_append] at hl
        injection hl with hx hb
        subst hx hb h2
        left
        rw [if_pos]
        · simp
        · simp only [Bool.and_eq_true, decide_eq_true_eq, Bool.not_eq_true']
          refine ⟨⟨h1, h3⟩, ?_⟩
          cases hcon : (prev ++ [x]).contains (O.inverse x) with
          | false => rfl
          | true =>
            have := List.contains_iff_mem.1 hcon
            rw [List.append_nil] at h4
            rcases List.mem_append.1 this with h | h
            · exact absurd h h4
            · exact absurd (by simpa using h) h5
      | cons y a =>
        rw [List.cons_append] at hl
        injection hl with hx hb
        subst hx hb
        right
        exact ⟨a, b, rfl, h1, h2, h3, by simpa using h4, h5⟩

theorem pairs_nodup {prev l : List Ent} (h : l.Nodup) : (pairs O prev l).Nodup := by
  induction l generalizing prev with
  | nil => simp [pairs]
  | cons x l ih =>
    obtain ⟨h1, h2⟩ := List.nodup_cons.1 h
    unfold pairs
    rw [List.nodup_append]
    refine ⟨by split <;> simp, ih h2, ?_⟩
    rintro ⟨a, b⟩ ha ⟨c, d⟩ hc he
    cases he
    obtain ⟨u, v, rfl, _⟩ := mem_pairs.1 hc
    split at ha
    · simp only [List.mem_cons, Prod.mk.injEq, List.not_mem_nil, or_false] at ha
      exact h1 (by rw [← ha.1]; simp)
    · cases ha

/-! ## Theorems -/

/-- C83: drawing ends (with a recursion at most as deep as there are entities). It draws a node for every entity of the requested namespaces and for
everything these call for, once; in colour exactly if the namespace is requested; in the cluster of the namespace if grouping is asked for. It draws an
`is_a` edge for every direct superclass of a drawn entity, once. -/
theorem draw_exact (U : List Ent) (hU : ∀ x ∈ U, ∀ y, Needs O x y → y ∈ U) (entities : Ns → List Ent) (he : ∀ n ∈ P.requested, ∀ e ∈ entities n, e ∈ U)
    (fuel : Nat) (hf : U.length + 1 ≤ fuel) :
    ∃ st, render O P fuel entities = some st ∧ (nodes st.out).Nodup ∧
      (∀ z, z ∈ nodes st.out ↔ ∃ n ∈ P.requested, ∃ e ∈ entities n, Relation.ReflTransGen (Needs O) e z) ∧
      (∀ c z b, Stmt.node c z b ∈ st.out → (c = if P.group then some (O.ns z) else none) ∧ (b = true ↔ O.ns z ∈ P.requested)) ∧
      (isAs st.out).Perm ((nodes st.out).flatMap fun z => (O.supers z).map fun y => (z, y)) ∧
      st.clusters.Nodup ∧ ∀ n, n ∈ st.clusters ↔ P.group = true ∧ ∃ z ∈ nodes st.out, O.ns z = n := by
  have he' : ∀ e ∈ P.requested.flatMap entities, e ∈ U := by
    intro e h
    obtain ⟨n, hn, h⟩ := List.mem_flatMap.1 h
    exact he n hn e h
  obtain ⟨st, h⟩ := addAll_some (P := P) U hU fuel _ he' hf {}
  obtain ⟨new, g, k1, k2, k3, k4⟩ := addAll_drew _ _ _ _ h
  obtain ⟨o, o1, o2, o3, o4, o5⟩ := g.out
  have hv : st.visited = new := g.vis
  have ho : st.out = o := o1
  have hnodes : nodes st.out = new := by rw [ho, o2]
  refine ⟨st, h, ?_, ?_, ?_, ?_, g.nodup (by simp), ?_⟩
  · rw [hnodes, ← hv]; exact k1 (by simp)
  · intro z
    rw [hnodes]
    constructor
    · intro hz
      obtain ⟨e, h1, h2⟩ := k3 z hz
      obtain ⟨n, hn, h1⟩ := List.mem_flatMap.1 h1
      exact ⟨n, hn, e, h1, h2⟩
    · rintro ⟨n, hn, e, h1, h2⟩
      induction h2 with
      | refl => rw [← hv]; exact k2 e (List.mem_flatMap.2 ⟨n, hn, h1⟩)
      | tail _ hl ih => rw [← hv]; exact k4 _ ih _ hl
  · intro c z b hm
    rw [ho] at hm
    obtain ⟨h1, h2⟩ := o5 c z b hm
    exact ⟨h1, by rw [h2, decide_eq_true_eq]⟩
  · rw [hnodes, ho]; exact o3
  · intro n
    rw [g.clusters, hnodes]
    simp

/-- C83: `inverse` edges connect a relationship with its inverse, no pair is connected twice (in whatever direction), and all pairs of drawn inverse
relationships are connected if both have names of their own. -/
theorem draw_inverses (hinv : ∀ e, O.kind e = .rel → O.kind (O.inverse e) = .rel ∧ O.inverse (O.inverse e) = e) (fuel : Nat) (entities : Ns → List Ent) (st : St)
    (h : render O P fuel entities = some st) :
    (invs st.out).Nodup ∧
    (∀ e f, (e, f) ∈ invs st.out → e ≠ f ∧ O.kind e = .rel ∧ f = O.inverse e ∧ e ∈ nodes st.out ∧ f ∈ nodes st.out ∧ (f, e) ∉ invs st.out) ∧
    ∀ e, e ∈ nodes st.out → O.kind e = .rel → O.inverse e ≠ e → O.automatic e = false → O.automatic (O.inverse e) = false →
      (e, O.inverse e) ∈ invs st.out ∨ (O.inverse e, e) ∈ invs st.out := by
  obtain ⟨new, g, k1, k2, k3, k4⟩ := addAll_drew _ _ _ _ h
  obtain ⟨o, o1, o2, o3, o4, o5⟩ := g.out
  have hv : st.visited = new := g.vis
  have ho : st.out = o := o1
  have hnodes : nodes st.out = new := by rw [ho, o2]
  have hn : new.Nodup := by rw [← hv]; exact k1 (by simp)
  have hi : ∀ p, p ∈ invs st.out ↔ p ∈ pairs O [] new := by intro p; rw [ho]; exact o4.mem_iff
  have hsplit : ∀ (a b c d : List Ent) (x y : Ent), new = a ++ x :: b → new = c ++ y :: d → x ∉ c → y ∉ a → x = y := by
    intro a b c d x y h1 h2 hx hy
    have h3 : a ++ x :: b = c ++ y :: d := h1.symm.trans h2
    rcases List.append_eq_append_iff.1 h3 with ⟨a', rfl, e⟩ | ⟨c', rfl, e⟩
    · cases a' with
      | nil => rw [List.nil_append] at e; injection e
      | cons z a' => rw [List.cons_append] at e; injection e with e _; subst e; exact absurd (by simp) hx
    · cases c' with
      | nil => rw [List.nil_append] at e; injection e with e _; exact e.symm
      | cons z c' => rw [List.cons_append] at e; injection e with e _; subst e; exact absurd (by simp) hy
  refine ⟨by rw [ho]; exact o4.nodup_iff.2 (pairs_nodup hn), ?_, ?_⟩
  · intro e f hm
    rw [hi, mem_pairs] at hm
    obtain ⟨a, b, h1, h2, h3, h4, h5, h6⟩ := hm
    have he : e ∈ new := by rw [h1]; simp
    refine ⟨h6.symm, h2, h3, hnodes ▸ he, hnodes ▸ hv ▸ k4 e he f (Or.inr ⟨h2, h3, h4⟩), fun hm' => ?_⟩
    rw [hi, mem_pairs] at hm'
    obtain ⟨c, d, g1, g2, g3, g4, g5, g6⟩ := hm'
    exact h6 (hsplit a b c d e f h1 g1 (by simpa using g5) (by simpa using h5)).symm
  · intro e he hk hne ha hb
    rw [hnodes] at he
    have hf : O.inverse e ∈ new := hv ▸ k4 e he _ (Or.inr ⟨hk, rfl, hb⟩)
    obtain ⟨a, b, h1⟩ := List.append_of_mem he
    obtain ⟨c, d, h2⟩ := List.append_of_mem hf
    by_cases hx : e ∈ c
    · left
      rw [hi, mem_pairs]
      refine ⟨a, b, h1, hk, rfl, hb, ?_, hne⟩
      rw [List.nil_append]
      intro hy
      -- the inverse would come both before and after
      obtain ⟨a1, a2, rfl⟩ := List.append_of_mem hy
      obtain ⟨c1, c2, rfl⟩ := List.append_of_mem hx
      have e1 : a1 ++ O.inverse e :: (a2 ++ e :: b) = (c1 ++ e :: c2) ++ O.inverse e :: d := by rw [← h2, h1]; simp
      have hpos : a1 = c1 ++ e :: c2 := by
        rcases List.append_eq_append_iff.1 e1 with ⟨a', h3, h4⟩ | ⟨c', h3, h4⟩
        · cases a' with
          | nil => simpa using h3.symm
          | cons z a' =>
            rw [List.cons_append] at h4
            injection h4 with h4 h5
            subst h4
            rw [h2, h3] at hn
            have := (List.nodup_append.1 hn).2.2 (O.inverse e) (by simp) (O.inverse e) (by simp)
            exact absurd rfl this
        · cases c' with
          | nil => simpa using h3
          | cons z c' =>
            rw [List.cons_append] at h4
            injection h4 with h4 h5
            subst h4
            rw [h1, h3] at hn
            have hh := (List.nodup_append.1 hn).1
            have := (List.nodup_append.1 hh).2.2
            have hh2 := (List.nodup_append.1 hh).1
            have := (List.nodup_append.1 hh).2.2 (O.inverse e) (by simp) (O.inverse e) (by simp)
            exact absurd rfl this
      rw [h1, hpos] at hn
      have := (List.nodup_append.1 hn).2.2 e (by simp) e (by simp)
      exact this rfl
    · right
      rw [hi, mem_pairs]
      refine ⟨c, d, h2, (hinv e hk).1, (hinv e hk).2.symm, ha, by simpa using hx, hne.symm⟩

end Osp.Draw
