import Batteries.Data.List.Perm
import Verif.Store.Model
import Verif.Store.Spec
import Verif.Cuds.Props
/-! Helper lemmas for copying objects between sessions. -/
namespace Osp.Store
open Osp.Cuds

variable {E : Order} {O : Onto}

theorem mem_keysOf (hE : E.Ok) {g : Graph} {u : Uid} {r : Rel} : r ∈ keysOf E g u ↔ r ∈ neighborRels g u := (hE.rels _).mem_iff
theorem mem_tgtsOf (hE : E.Ok) {g : Graph} {u : Uid} {r : Rel} {x : Uid} : x ∈ tgtsOf E g u r ↔ (⟨u, .rel r, .cuds x⟩ : Triple) ∈ g := by
  rw [tgtsOf, (hE.uids _).mem_iff, mem_targets]

theorem active_iff {r : Rel} : active O r = true ↔ Active O r := Iff.rfl

theorem neighborRels_of {g : Graph} {u x : Uid} {r : Rel} (h : (⟨u, .rel r, .cuds x⟩ : Triple) ∈ g) : r ∈ neighborRels g u :=
  mem_neighborRels.2 ⟨_, h⟩

/-- Does the object of a view have this link? No object, no links. -/
def VLink (v : Option View) (r : Rel) (x : Uid) : Prop := ∃ w, v = some w ∧ (⟨w.u, .rel r, .cuds x⟩ : Triple) ∈ w.g

theorem mem_oldUids {c : Option View} {r : Rel} {x : Uid} : x ∈ oldUids c r ↔ VLink c r x := by
  rcases c with _ | ⟨g, u⟩
  · simp [oldUids, VLink]
  · simp only [oldUids, VLink, Option.some.injEq, exists_eq_left']
    split
    · rw [mem_targets]
    · rename_i h
      simp only [List.not_mem_nil, false_iff]
      exact fun h' => h (neighborRels_of h')

/-- The result of `get_neighbor_diff`. -/
theorem neighborDiff_mem (hE : E.Ok) (c1 c2 : Option View) (mode : String) (hm : mode ∈ ["all", "active", "non-active"]) :
    ∃ l, neighborDiff E O c1 c2 mode = .ok l ∧ ∀ x r, (x, r) ∈ l ↔
      VLink c1 r x ∧ ¬ VLink c2 r x ∧ (mode = "active" → Active O r) ∧ (mode = "non-active" → ¬ Active O r) := by
  unfold neighborDiff
  rw [if_neg (not_not_intro hm)]
  rcases c1 with _ | ⟨g, u⟩
  · exact ⟨[], rfl, by simp [VLink]⟩
  · refine ⟨_, rfl, fun x r => ?_⟩
    rw [List.mem_flatMap]
    constructor
    · rintro ⟨r', hr', h⟩
      split at h
      · simp at h
      · rename_i hc
        obtain ⟨y, hy, he⟩ := List.mem_map.1 h
        simp only [Prod.mk.injEq] at he
        obtain ⟨rfl, rfl⟩ := he
        rw [(hE.uids _).mem_iff, List.mem_filter, mem_targets] at hy
        refine ⟨⟨_, rfl, hy.1⟩, fun h2 => ?_, fun hm => ?_, fun hm => ?_⟩
        · have := hy.2
          simp only [decide_eq_true_eq] at this
          exact this (mem_oldUids.2 h2)
        · by_contra hn
          exact hc (Or.inl ⟨hm, hn⟩)
        · intro hn
          exact hc (Or.inr ⟨hm, hn⟩)
    · rintro ⟨⟨w, hw, hl⟩, h2, ha, hn⟩
      cases hw
      refine ⟨r, (mem_keysOf hE).2 (neighborRels_of hl), ?_⟩
      rw [if_neg]
      · rw [List.mem_map]
        refine ⟨x, ?_, rfl⟩
        rw [(hE.uids _).mem_iff, List.mem_filter, mem_targets]
        refine ⟨hl, ?_⟩
        simp only [decide_eq_true_eq]
        exact fun h => h2 (mem_oldUids.1 h)
      · rintro (⟨hm, hna⟩ | ⟨hm, hna⟩)
        · exact hna (ha hm)
        · exact hn hm hna

theorem neighborDiff_nodup (hE : E.Ok) (c1 c2 : Option View) (hg : ∀ v, c1 = some v → v.g.Nodup) (mode : String) (l : List (Uid × Rel))
    (h : neighborDiff E O c1 c2 mode = .ok l) : l.Nodup := by
  unfold neighborDiff at h
  split at h
  · cases h
  rcases c1 with _ | ⟨g, u⟩
  · cases h; exact List.nodup_nil
  · cases h
    rw [List.Nodup, List.pairwise_flatMap]
    constructor
    · intro r hr
      split
      · exact List.nodup_nil
      · have hnd : (E.uids ((targets g u r).filter (· ∉ oldUids c2 r))).Nodup :=
          (hE.uids _).nodup_iff.2 ((nodup_targets (hg _ rfl) u r).filter _)
        rw [List.pairwise_map]
        exact hnd.imp fun hab he => hab (Prod.mk.inj he).1
    · have hnd : (keysOf E g u).Nodup := (hE.rels _).nodup_iff.2 (nodup_neighborRels g u)
      refine hnd.imp ?_
      intro r r' hne p hp p' hp' hpp
      subst hpp
      have f : ∀ q, p ∈ (if (mode = "active" ∧ ¬ active O q) ∨ (mode = "non-active" ∧ active O q) then []
          else (E.uids ((targets g u q).filter (· ∉ oldUids c2 q))).map fun x => (x, q)) → p.2 = q := by
        intro q hq
        split at hq
        · simp at hq
        · obtain ⟨_, _, rfl⟩ := List.mem_map.1 hq
          rfl
      exact hne ((f r hp).symm.trans (f r' hp'))

/-! ### clones -/

theorem mem_cloneGraph {g : Graph} {u : Uid} {t : Triple} :
    t ∈ cloneGraph g u ↔ t ∈ g ∧ (t.s = u ∨ (t.p = .type ∧ ∃ p, (⟨u, p, .cuds t.s⟩ : Triple) ∈ g)) := by
  unfold cloneGraph
  rw [List.mem_filter]
  simp only [Bool.or_eq_true, decide_eq_true_eq, Bool.and_eq_true, List.any_eq_true]
  refine and_congr Iff.rfl (or_congr Iff.rfl (and_congr Iff.rfl ?_))
  constructor
  · rintro ⟨⟨s, p, o⟩, h, rfl, rfl⟩; exact ⟨p, h⟩
  · rintro ⟨p, h⟩; exact ⟨_, h, rfl, rfl⟩

theorem link_cloneGraph {g : Graph} {u x : Uid} {r : Rel} : (⟨u, .rel r, .cuds x⟩ : Triple) ∈ cloneGraph g u ↔ (⟨u, .rel r, .cuds x⟩ : Triple) ∈ g := by
  rw [mem_cloneGraph]
  simp

theorem cloneGraph_sub {g : Graph} {u : Uid} {t : Triple} (h : t ∈ cloneGraph g u) : t ∈ g := (mem_cloneGraph.1 h).1

/-! ### create_from_cuds_object -/

theorem mem_attrsOf {g : Graph} {u : Uid} {a : Attr} {v : Val} : (a, v) ∈ attrsOf g u ↔ (⟨u, .attr a, .val v⟩ : Triple) ∈ g := by
  unfold attrsOf
  rw [List.mem_filterMap]
  constructor
  · rintro ⟨⟨s, p, o⟩, hm, he⟩
    rw [mem_gtriples, matchesPat_iff] at hm
    have := hm.2.1 u rfl
    simp only at this
    subst this
    revert he
    cases p <;> cases o <;> simp
    rintro rfl rfl
    exact hm.1
  · intro h
    refine ⟨_, mem_gtriples.2 ⟨h, ?_⟩, rfl⟩
    rw [matchesPat_iff]
    simp

theorem mem_foldl_set (u : Uid) (vals : List (Attr × Val)) (g : Graph) (hf : ∀ a v w, (a, v) ∈ vals → (a, w) ∈ vals → v = w)
    (hg : ∀ a o, (⟨u, .attr a, o⟩ : Triple) ∈ g → ∃ v, (a, v) ∈ vals ∧ o = .val v) (t : Triple) :
    t ∈ vals.foldl (fun g av => g.set ⟨u, .attr av.1, .val av.2⟩) g ↔ t ∈ g ∨ ∃ a v, (a, v) ∈ vals ∧ t = ⟨u, .attr a, .val v⟩ := by
  suffices H : ∀ (vs : List (Attr × Val)) (g : Graph), (∀ e ∈ vs, e ∈ vals) →
      (∀ a o, (⟨u, .attr a, o⟩ : Triple) ∈ g → ∃ v, (a, v) ∈ vals ∧ o = .val v) →
      (t ∈ vs.foldl (fun g av => g.set ⟨u, .attr av.1, .val av.2⟩) g ↔ t ∈ g ∨ ∃ a v, (a, v) ∈ vs ∧ t = ⟨u, .attr a, .val v⟩) from
    H vals g (fun _ h => h) hg
  intro vs
  induction vs with
  | nil => intro g _ _; simp
  | cons e vs ih =>
    obtain ⟨a, v⟩ := e
    intro g hs hg
    rw [List.foldl_cons, ih]
    · simp only [mem_gset, List.mem_cons, Prod.mk.injEq]
      constructor
      · rintro ((h | ⟨h, _⟩) | ⟨a', v', h, e⟩)
        · exact Or.inr ⟨a, v, Or.inl ⟨rfl, rfl⟩, h⟩
        · exact Or.inl h
        · exact Or.inr ⟨a', v', Or.inr h, e⟩
      · rintro (h | ⟨a', v', ⟨rfl, rfl⟩ | h, e⟩)
        · by_cases hc : t.s = u ∧ t.p = .attr a
          · obtain ⟨s, p, o⟩ := t
            obtain ⟨rfl, rfl⟩ := hc
            obtain ⟨w, hw, rfl⟩ := hg _ _ h
            have := hf a v w (hs _ (by simp)) hw
            subst this
            exact Or.inl (Or.inl rfl)
          · exact Or.inl (Or.inr ⟨h, hc⟩)
        · exact Or.inl (Or.inl e)
        · exact Or.inr ⟨a', v', h, e⟩
    · exact fun e he => hs e (List.mem_cons_of_mem _ he)
    · intro a' o h
      rw [mem_gset] at h
      rcases h with h | ⟨h, _⟩
      · cases h
        exact ⟨v, hs _ (by simp), rfl⟩
      · exact hg _ _ h

theorem nodup_gset {g : Graph} {t : Triple} (h : g.Nodup) : (g.set t).Nodup := nodup_gadd (nodup_gremove h)

theorem nodup_foldl_set (u : Uid) (vals : List (Attr × Val)) (g : Graph) (h : g.Nodup) :
    (vals.foldl (fun g av => g.set ⟨u, .attr av.1, .val av.2⟩) g).Nodup := by
  induction vals generalizing g with
  | nil => exact h
  | cons e vs ih => exact ih _ (nodup_gset h)

theorem mem_remove_subj {g : Graph} {u : Uid} {t : Triple} : t ∈ g.remove (some u) none none ↔ t ∈ g ∧ t.s ≠ u := by
  rw [mem_gremove, Bool.eq_false_iff, ne_eq, matchesPat_iff]
  simp [eq_comm]

theorem mem_changeOclass {g : Graph} {u : Uid} {c : Cls} {vals : List (Attr × Val)} (hf : ∀ a v w, (a, v) ∈ vals → (a, w) ∈ vals → v = w)
    {t : Triple} : t ∈ changeOclass g u c vals ↔ (t ∈ g ∧ t.s ≠ u) ∨ t = ⟨u, .type, .cls c⟩ ∨ ∃ a v, (a, v) ∈ vals ∧ t = ⟨u, .attr a, .val v⟩ := by
  unfold changeOclass
  rw [mem_foldl_set u vals _ hf]
  · rw [mem_gadd, mem_remove_subj]
    constructor
    · rintro ((h | h) | h)
      · exact Or.inr (Or.inl h)
      · exact Or.inl h
      · exact Or.inr (Or.inr h)
    · rintro (h | h | h)
      · exact Or.inl (Or.inr h)
      · exact Or.inl (Or.inl h)
      · exact Or.inr h
  · intro a o h
    rw [mem_gadd, mem_remove_subj] at h
    rcases h with h | h
    · cases h
    · exact absurd rfl h.2

theorem nodup_changeOclass {g : Graph} {u : Uid} {c : Cls} {vals : List (Attr × Val)} (h : g.Nodup) : (changeOclass g u c vals).Nodup :=
  nodup_foldl_set _ _ _ (nodup_gadd (nodup_gremove h))

theorem foldl_remove_rels (u : Uid) (rs : List Rel) (g : Graph) :
    (∀ t, t.s ≠ u → (t ∈ rs.foldl (fun g r => g.remove (some u) (some (.rel r)) none) g ↔ t ∈ g)) ∧
      (g.Nodup → (rs.foldl (fun g r => g.remove (some u) (some (.rel r)) none) g).Nodup) := by
  induction rs generalizing g with
  | nil => simp
  | cons r rs ih =>
    refine ⟨fun t ht => ?_, fun h => (ih _).2 (nodup_gremove h)⟩
    rw [List.foldl_cons, (ih _).1 t ht, mem_gremove, Bool.eq_false_iff, ne_eq, matchesPat_iff]
    constructor
    · exact fun h => h.1
    · exact fun h => ⟨h, fun hm => ht (hm.1 u rfl).symm⟩

theorem mem_remove_rel {g : Graph} {u : Uid} {r : Rel} {t : Triple} :
    t ∈ g.remove (some u) (some (.rel r)) none ↔ t ∈ g ∧ ¬ (t.s = u ∧ t.p = .rel r) := by
  rw [mem_gremove, Bool.eq_false_iff, ne_eq, matchesPat_iff]
  simp [eq_comm]

theorem foldl_setTarget (u : Uid) (r : Rel) (ocs : Uid → List Cls) (xs : List Uid) (g : Graph) :
    (∀ t, t ∈ xs.foldl (fun g x => setTarget g u r x (ocs x)) g ↔
      t ∈ g ∨ ∃ x ∈ xs, t = ⟨u, .rel r, .cuds x⟩ ∨ ∃ c ∈ ocs x, t = ⟨x, .type, .cls c⟩) ∧
    (g.Nodup → (xs.foldl (fun g x => setTarget g u r x (ocs x)) g).Nodup) := by
  induction xs generalizing g with
  | nil => simp
  | cons x xs ih =>
    refine ⟨fun t => ?_, fun h => (ih _).2 (nodup_setTarget h)⟩
    rw [List.foldl_cons, (ih _).1, mem_setTarget]
    simp only [List.mem_cons, exists_eq_or_imp]
    constructor
    · rintro ((h | h | h) | h)
      · exact Or.inr (Or.inl (Or.inl h))
      · exact Or.inl h
      · exact Or.inr (Or.inl (Or.inr h))
      · exact Or.inr (Or.inr h)
    · rintro (h | (h | h) | h)
      · exact Or.inl (Or.inr (Or.inl h))
      · exact Or.inl (Or.inl h)
      · exact Or.inl (Or.inr (Or.inr h))
      · exact Or.inr h

/-- `copyLinks` into a graph in which the object has no links. -/
theorem mem_copyLinks (hE : E.Ok) (src : Graph) (u : Uid) (g : Graph) (hg : ∀ r o, (⟨u, .rel r, o⟩ : Triple) ∉ g) (hn : g.Nodup) :
    (∀ t, t ∈ copyLinks E src u g ↔ t ∈ g ∨ ∃ r x, (⟨u, .rel r, .cuds x⟩ : Triple) ∈ src ∧
      (t = ⟨u, .rel r, .cuds x⟩ ∨ ∃ c, (⟨x, .type, .cls c⟩ : Triple) ∈ src ∧ t = ⟨x, .type, .cls c⟩)) ∧ (copyLinks E src u g).Nodup := by
  unfold copyLinks
  suffices H : ∀ (rs : List Rel) (g : Graph), g.Nodup → rs.Nodup → (∀ r ∈ rs, ∀ o, (⟨u, .rel r, o⟩ : Triple) ∉ g) →
      (∀ t, t ∈ rs.foldl (fun g r => (tgtsOf E src u r).foldl (fun g x => setTarget g u r x (oclasses src x))
        (g.remove (some u) (some (.rel r)) none)) g ↔ t ∈ g ∨ ∃ r ∈ rs, ∃ x, (⟨u, .rel r, .cuds x⟩ : Triple) ∈ src ∧
        (t = ⟨u, .rel r, .cuds x⟩ ∨ ∃ c, (⟨x, .type, .cls c⟩ : Triple) ∈ src ∧ t = ⟨x, .type, .cls c⟩)) ∧
      (rs.foldl (fun g r => (tgtsOf E src u r).foldl (fun g x => setTarget g u r x (oclasses src x))
        (g.remove (some u) (some (.rel r)) none)) g).Nodup by
    obtain ⟨h1, h2⟩ := H (keysOf E src u) g hn ((hE.rels _).nodup_iff.2 (nodup_neighborRels src u)) (fun r _ o => hg r o)
    refine ⟨fun t => ?_, h2⟩
    rw [h1]
    constructor
    · rintro (h | ⟨r, _, x, h⟩)
      · exact Or.inl h
      · exact Or.inr ⟨r, x, h⟩
    · rintro (h | ⟨r, x, hm, h⟩)
      · exact Or.inl h
      · exact Or.inr ⟨r, (mem_keysOf hE).2 (neighborRels_of hm), x, hm, h⟩
  intro rs
  induction rs with
  | nil => intro g hn _ _; simp [hn]
  | cons r rs ih =>
    intro g hn hrs hg
    have hrem : g.remove (some u) (some (.rel r)) none = g := by
      apply gremove_eq_self
      rintro ⟨s, p, o⟩ ht
      rw [Bool.eq_false_iff, ne_eq, matchesPat_iff]
      intro hm
      have h1 := hm.1 _ rfl
      have h2 := hm.2.1 _ rfl
      simp only at h1 h2
      subst h1 h2
      exact hg r (by simp) o ht
    rw [List.foldl_cons, hrem]
    obtain ⟨f1, f2⟩ := foldl_setTarget u r (oclasses src) (tgtsOf E src u r) g
    rw [List.nodup_cons] at hrs
    obtain ⟨i1, i2⟩ := ih _ (f2 hn) hrs.2 (by
      intro q hq o hm
      rw [f1] at hm
      rcases hm with hm | ⟨x, _, h | ⟨c, _, h⟩⟩
      · exact hg q (List.mem_cons_of_mem _ hq) o hm
      · cases h; exact hrs.1 hq
      · cases h)
    refine ⟨fun t => ?_, i2⟩
    rw [i1, f1]
    simp only [List.mem_cons, exists_eq_or_imp, mem_tgtsOf hE, mem_oclasses]
    constructor
    · rintro ((h | ⟨x, hx, h⟩) | h)
      · exact Or.inl h
      · exact Or.inr (Or.inl ⟨x, hx, h⟩)
      · exact Or.inr (Or.inr h)
    · rintro (h | ⟨x, hx, h⟩ | h)
      · exact Or.inl (Or.inl h)
      · exact Or.inl (Or.inr ⟨x, hx, h⟩)
      · exact Or.inr h

/-- The effect of `create_from_cuds_object`. `B` is the view of the source session. Of an object that is not registered, the graph may only
contain its type. -/
theorem createFrom_spec (hE : E.Ok) {src s : Sess} {B : Abs} (hB : Refines src B) {u : Uid} {c : Cls}
    (hc : B.cls u = some c) (hu0 : u ≠ 0) (hn : s.g.Nodup)
    (hnew : u ∉ s.reg → ∀ t ∈ s.g, t.s = u → t = ⟨u, .type, .cls c⟩) :
    ∃ s', createFrom E src s u = ⟨.ok (), s'⟩ ∧ s'.g.Nodup ∧ (∀ v, v ∈ s'.reg ↔ v = u ∨ v ∈ s.reg) ∧
      (s.root ≠ none → s'.root = s.root) ∧ s'.reg.length ≤ s.reg.length + 1 ∧
      ∀ t, t ∈ s'.g ↔ (t ∈ s.g ∧ t.s ≠ u) ∨ t = ⟨u, .type, .cls c⟩ ∨ (∃ a v, B.attr u a = some v ∧ t = ⟨u, .attr a, .val v⟩) ∨
        (∃ r x, B.link u r x ∧ (t = ⟨u, .rel r, .cuds x⟩ ∨ ∃ c', B.cls x = some c' ∧ t = ⟨x, .type, .cls c'⟩)) := by
  have hfun : ∀ a v w, (a, v) ∈ attrsOf src.g u → (a, w) ∈ attrsOf src.g u → v = w := by
    intro a v w h1 h2
    rw [mem_attrsOf, hB.attr] at h1 h2
    exact Option.some.inj (h1.symm.trans h2)
  have key : ∃ s1, createRecycle E s u c (attrsOf src.g u) = ⟨.ok (), s1⟩ ∧ s1.g.Nodup ∧ (∀ v, v ∈ s1.reg ↔ v = u ∨ v ∈ s.reg) ∧
      (s.root ≠ none → s1.root = s.root) ∧ s1.reg.length ≤ s.reg.length + 1 ∧
      ∀ t, t ∈ s1.g ↔ (t ∈ s.g ∧ t.s ≠ u) ∨ t = ⟨u, .type, .cls c⟩ ∨ (∃ a v, B.attr u a = some v ∧ t = ⟨u, .attr a, .val v⟩) := by
    unfold createRecycle
    split
    · rename_i hreg
      refine ⟨_, rfl, ?_, ?_, fun _ => rfl, by simp, ?_⟩
      · exact nodup_changeOclass ((foldl_remove_rels u _ s.g).2 hn)
      · intro v
        simp only
        constructor
        · exact Or.inr
        · rintro (rfl | h) <;> assumption
      · intro t
        simp only
        rw [mem_changeOclass hfun]
        simp only [mem_attrsOf, hB.attr]
        have := (foldl_remove_rels u (keysOf E s.g u) s.g).1 t
        constructor
        · rintro (⟨h, hne⟩ | h)
          · exact Or.inl ⟨(this hne).1 h, hne⟩
          · exact Or.inr h
        · rintro (⟨h, hne⟩ | h)
          · exact Or.inl ⟨(this hne).2 h, hne⟩
          · exact Or.inr h
    · rename_i hreg
      unfold create
      rw [if_neg hu0]
      obtain ⟨f1, f2⟩ := foldl_gadd ((attrsOf src.g u).map (fun av => (⟨u, .attr av.1, .val av.2⟩ : Triple)) ++ [⟨u, .type, .cls c⟩]) s.g
      refine ⟨_, rfl, f2 hn, ?_, ?_, ?_, ?_⟩
      · intro v
        simp [hreg, or_comm]
      · intro hr
        rcases hs : s.root with _ | w
        · exact absurd hs hr
        · rfl
      · simp [hreg]
      · intro t
        simp only
        rw [f1]
        simp only [List.mem_append, List.mem_map, List.mem_singleton]
        constructor
        · rintro (h | ⟨⟨a, v⟩, hm, rfl⟩ | h)
          · by_cases hs : t.s = u
            · exact Or.inr (Or.inl (hnew hreg t h hs))
            · exact Or.inl ⟨h, hs⟩
          · rw [mem_attrsOf, hB.attr] at hm
            exact Or.inr (Or.inr ⟨a, v, hm, rfl⟩)
          · exact Or.inr (Or.inl h)
        · rintro (h | h | ⟨a, v, hm, rfl⟩)
          · exact Or.inl h.1
          · exact Or.inr (Or.inr h)
          · exact Or.inr (Or.inl ⟨(a, v), mem_attrsOf.2 ((hB.attr _ _ _).2 hm), rfl⟩)
  obtain ⟨s1, hs1, hn1, hreg1, hroot1, hlen1, hm1⟩ := key
  unfold createFrom
  rw [oclass_ref hB, hc]
  simp only [hs1]
  have hnol : ∀ r o, (⟨u, .rel r, o⟩ : Triple) ∉ s1.g := by
    intro r o h
    rw [hm1] at h
    rcases h with ⟨_, h⟩ | h | ⟨_, _, _, h⟩
    · exact h rfl
    · cases h
    · cases h
  obtain ⟨c1, c2⟩ := mem_copyLinks hE src.g u s1.g hnol hn1
  refine ⟨_, rfl, c2, hreg1, hroot1, hlen1, ?_⟩
  intro t
  simp only
  rw [c1, hm1]
  simp only [hB.link, hB.type]
  constructor
  · rintro ((h | h | h) | h)
    · exact Or.inl h
    · exact Or.inr (Or.inl h)
    · exact Or.inr (Or.inr (Or.inl h))
    · exact Or.inr (Or.inr (Or.inr h))
  · rintro (h | h | h | h)
    · exact Or.inl (Or.inl h)
    · exact Or.inl (Or.inr (Or.inl h))
    · exact Or.inl (Or.inr (Or.inr h))
    · exact Or.inr h

/-! ### fixing the neighbours -/

theorem fixNewParents_spec (reg : List Uid) (u : Uid) (ds : List (Uid × Rel)) (g : Graph) (m : Missing) (hn : g.Nodup) :
    (fixNewParents O reg u ds g m).1.Nodup ∧
    (∀ t, t ∈ (fixNewParents O reg u ds g m).1 ↔ t ∈ g ∨ ∃ x r, (x, r) ∈ ds ∧ ¬ Active O r ∧ x ∈ reg ∧ t = ⟨x, .rel (O.inv r), .cuds u⟩) ∧
    (∀ e, e ∈ (fixNewParents O reg u ds g m).2 ↔ e ∈ m ∨ ∃ x r, (x, r) ∈ ds ∧ ¬ Active O r ∧ x ∉ reg ∧ e = (x, u, r)) := by
  induction ds generalizing g m with
  | nil => simp [fixNewParents, hn]
  | cons d ds ih =>
    obtain ⟨x, r⟩ := d
    unfold fixNewParents
    split
    · rename_i ha
      obtain ⟨i1, i2, i3⟩ := ih g m hn
      refine ⟨i1, fun t => ?_, fun e => ?_⟩
      · rw [i2]
        constructor
        · rintro (h | ⟨y, q, hd, h⟩)
          · exact Or.inl h
          · exact Or.inr ⟨y, q, List.mem_cons_of_mem _ hd, h⟩
        · rintro (h | ⟨y, q, hd, hna, h⟩)
          · exact Or.inl h
          · rcases List.mem_cons.1 hd with he | hd
            · cases he; exact absurd ha hna
            · exact Or.inr ⟨y, q, hd, hna, h⟩
      · rw [i3]
        constructor
        · rintro (h | ⟨y, q, hd, h⟩)
          · exact Or.inl h
          · exact Or.inr ⟨y, q, List.mem_cons_of_mem _ hd, h⟩
        · rintro (h | ⟨y, q, hd, hna, h⟩)
          · exact Or.inl h
          · rcases List.mem_cons.1 hd with he | hd
            · cases he; exact absurd ha hna
            · exact Or.inr ⟨y, q, hd, hna, h⟩
    · rename_i ha
      split
      · rename_i hx
        obtain ⟨i1, i2, i3⟩ := ih g (m ++ [(x, u, r)]) hn
        refine ⟨i1, fun t => ?_, fun e => ?_⟩
        · rw [i2]
          constructor
          · rintro (h | ⟨y, q, hd, h⟩)
            · exact Or.inl h
            · exact Or.inr ⟨y, q, List.mem_cons_of_mem _ hd, h⟩
          · rintro (h | ⟨y, q, hd, hna, hy, h⟩)
            · exact Or.inl h
            · rcases List.mem_cons.1 hd with he | hd
              · cases he; exact absurd hy hx
              · exact Or.inr ⟨y, q, hd, hna, hy, h⟩
        · rw [i3]
          simp only [List.mem_append, List.mem_singleton]
          constructor
          · rintro ((h | h) | ⟨y, q, hd, h⟩)
            · exact Or.inl h
            · exact Or.inr ⟨x, r, by simp, ha, hx, h⟩
            · exact Or.inr ⟨y, q, List.mem_cons_of_mem _ hd, h⟩
          · rintro (h | ⟨y, q, hd, hna, hy, h⟩)
            · exact Or.inl (Or.inl h)
            · rcases List.mem_cons.1 hd with he | hd
              · cases he; exact Or.inl (Or.inr h)
              · exact Or.inr ⟨y, q, hd, hna, hy, h⟩
      · rename_i hx
        have hx := Decidable.not_not.1 hx
        have hg1 : (if O.inv r ∉ neighborRels g x then g.remove (some x) (some (.rel (O.inv r))) none else g) = g := by
          split
          · rename_i hr
            apply gremove_eq_self
            rintro ⟨s, p, o⟩ ht
            rw [Bool.eq_false_iff, ne_eq, matchesPat_iff]
            intro hm
            have h1 := hm.1 _ rfl
            have h2 := hm.2.1 _ rfl
            simp only at h1 h2
            subst h1 h2
            exact hr (mem_neighborRels.2 ⟨_, ht⟩)
          · rfl
        simp only [hg1]
        obtain ⟨i1, i2, i3⟩ := ih _ m (nodup_setTarget hn)
        refine ⟨i1, fun t => ?_, fun e => ?_⟩
        · rw [i2, mem_setTarget]
          constructor
          · rintro ((h | h | ⟨c, hc, h⟩) | ⟨y, q, hd, h⟩)
            · exact Or.inr ⟨x, r, by simp, ha, hx, h⟩
            · exact Or.inl h
            · rw [h]; exact Or.inl (mem_oclasses.1 hc)
            · exact Or.inr ⟨y, q, List.mem_cons_of_mem _ hd, h⟩
          · rintro (h | ⟨y, q, hd, hna, hy, h⟩)
            · exact Or.inl (Or.inr (Or.inl h))
            · rcases List.mem_cons.1 hd with he | hd
              · cases he; exact Or.inl (Or.inl h)
              · exact Or.inr ⟨y, q, hd, hna, hy, h⟩
        · rw [i3]
          constructor
          · rintro (h | ⟨y, q, hd, h⟩)
            · exact Or.inl h
            · exact Or.inr ⟨y, q, List.mem_cons_of_mem _ hd, h⟩
          · rintro (h | ⟨y, q, hd, hna, hy, h⟩)
            · exact Or.inl h
            · rcases List.mem_cons.1 hd with he | hd
              · cases he; exact absurd hx hy
              · exact Or.inr ⟨y, q, hd, hna, hy, h⟩

/-- The triples `_fix_old_neighbors` removes: the links back from former content. -/
def Removed (O : Onto) (u : Uid) (ds : List (Uid × Rel)) (t : Triple) : Prop :=
  ∃ x r, (x, r) ∈ ds ∧ Active O r ∧ t = ⟨x, .rel (O.inv r), .cuds u⟩

/-- The triples `_fix_old_neighbors` may add. -/
def Added (O : Onto) (u : Uid) (old : Graph) (t : Triple) : Prop :=
  ∃ r y, ¬ Active O r ∧ (⟨u, .rel r, .cuds y⟩ : Triple) ∈ old ∧ (t = ⟨u, .rel r, .cuds y⟩ ∨ ∃ c, (⟨y, .type, .cls c⟩ : Triple) ∈ old ∧ t = ⟨y, .type, .cls c⟩)

theorem foldl_zip_fst {α β γ : Type} (f : γ → α → γ) (l : List α) (k : List β) (g : γ) :
    (l.zip k).foldl (fun g p => f g p.1) g = (l.take k.length).foldl f g := by
  induction l generalizing k g with
  | nil => simp
  | cons a l ih =>
    cases k with
    | nil => simp
    | cons b k => simp [ih]

theorem fixOldOne_spec (hE : E.Ok) (reg : List Uid) (u : Uid) (old : Graph) (x : Uid) (r : Rel) (g : Graph) (hn : g.Nodup) (hx : x ∈ reg) :
    ∃ g', fixOldOne E O reg u old x r g = .ok g' ∧ g'.Nodup ∧
      (∀ t ∈ g', (t ∈ g ∧ ¬ Removed O u [(x, r)] t) ∨ Added O u old t) ∧
      (∀ t ∈ g, ¬ Removed O u [(x, r)] t → t ∈ g') ∧
      (¬ Active O r → old.Nodup → ∀ kinds : List Rel, kinds.Nodup → (∀ q ∈ kinds, ∃ o, (⟨x, .rel q, o⟩ : Triple) ∈ g) →
        (∀ ys : List Uid, ys.Nodup → (∀ y ∈ ys, (⟨u, .rel r, .cuds y⟩ : Triple) ∈ old) → ys.length ≤ kinds.length) →
        ∀ y, (⟨u, .rel r, .cuds y⟩ : Triple) ∈ old → (⟨u, .rel r, .cuds y⟩ : Triple) ∈ g') := by
  unfold fixOldOne
  split
  · rename_i ha
    refine ⟨_, rfl, ?_, ?_, ?_, fun hna => absurd ha hna⟩
    · split
      · exact nodup_removeDirect hn
      · exact hn
    · intro t ht
      left
      split at ht
      · rw [mem_removeDirect] at ht
        refine ⟨ht.1, ?_⟩
        rintro ⟨y, q, hd, _, rfl⟩
        simp only [List.mem_singleton, Prod.mk.injEq] at hd
        obtain ⟨rfl, rfl⟩ := hd
        exact ht.2 rfl
      · rename_i hk
        refine ⟨ht, ?_⟩
        rintro ⟨y, q, hd, _, rfl⟩
        simp only [List.mem_singleton, Prod.mk.injEq] at hd
        obtain ⟨rfl, rfl⟩ := hd
        exact hk (neighborRels_of ht)
    · intro t ht hrm
      split
      · rw [mem_removeDirect]
        exact ⟨ht, fun e => hrm ⟨x, r, by simp, ha, e⟩⟩
      · exact ht
  · rename_i ha
    have hg1 : (if r ∉ neighborRels g u then g.remove (some u) (some (.rel r)) none else g) = g := by
      split
      · rename_i hr
        apply gremove_eq_self
        rintro ⟨s, p, o⟩ ht
        rw [Bool.eq_false_iff, ne_eq, matchesPat_iff]
        intro hm
        have h1 := hm.1 _ rfl
        have h2 := hm.2.1 _ rfl
        simp only at h1 h2
        subst h1 h2
        exact hr (mem_neighborRels.2 ⟨_, ht⟩)
      · rfl
    simp only [hg1]
    have hfold := foldl_zip_fst (fun g y => setTarget g u r y (oclasses old y)) (tgtsOf E old u r) (keysOf E g x) g
    rw [hfold]
    obtain ⟨f1, f2⟩ := foldl_setTarget u r (oclasses old) ((tgtsOf E old u r).take (keysOf E g x).length) g
    have hnr : ∀ t, ¬ Removed O u [(x, r)] t := by
      rintro t ⟨y, q, hd, hq, _⟩
      simp only [List.mem_singleton, Prod.mk.injEq] at hd
      obtain ⟨rfl, rfl⟩ := hd
      exact ha hq
    refine ⟨_, rfl, f2 hn, ?_, ?_, ?_⟩
    · intro t ht
      rw [f1] at ht
      rcases ht with ht | ⟨y, hy, h⟩
      · exact Or.inl ⟨ht, hnr t⟩
      · right
        have hy := (mem_tgtsOf hE).1 (List.mem_of_mem_take hy)
        refine ⟨r, y, ha, hy, ?_⟩
        rcases h with h | ⟨c, hc, h⟩
        · exact Or.inl h
        · exact Or.inr ⟨c, mem_oclasses.1 hc, h⟩
    · intro t ht _
      rw [f1]
      exact Or.inl ht
    · intro _ hond kinds hkn hkinds hys y hy
      rw [f1]
      right
      refine ⟨y, ?_, Or.inl rfl⟩
      have hlen : (tgtsOf E old u r).length ≤ (keysOf E g x).length := by
        have h1 : (tgtsOf E old u r).length ≤ kinds.length :=
          hys _ ((hE.uids _).nodup_iff.2 (nodup_targets hond u r)) fun z hz => (mem_tgtsOf hE).1 hz
        refine Nat.le_trans h1 (List.subperm_of_subset hkn fun q hq => ?_).length_le
        obtain ⟨o, ho⟩ := hkinds q hq
        exact (mem_keysOf hE).2 (mem_neighborRels.2 ⟨o, ho⟩)
      rw [List.take_of_length_le hlen]
      exact (mem_tgtsOf hE).2 hy

theorem fixOldNeighbors_spec (hE : E.Ok) (reg : List Uid) (u : Uid) (old : Graph) (hond : old.Nodup) (ds : List (Uid × Rel)) (g : Graph) (hn : g.Nodup)
    (hreg : ∀ x r, (x, r) ∈ ds → x ∈ reg) (hne : ∀ x r, (x, r) ∈ ds → x ≠ u) :
    ∃ g', fixOldNeighbors E O reg u old ds g = .ok g' ∧ g'.Nodup ∧
      (∀ t ∈ g', (t ∈ g ∧ ¬ Removed O u ds t) ∨ Added O u old t) ∧
      (∀ t ∈ g, ¬ Removed O u ds t → t ∈ g') ∧
      (∀ x r, (x, r) ∈ ds → ¬ Active O r → ∀ kinds : List Rel, kinds.Nodup →
        (∀ q ∈ kinds, ∃ o, (⟨x, .rel q, o⟩ : Triple) ∈ g ∧ ¬ Removed O u ds ⟨x, .rel q, o⟩) →
        (∀ ys : List Uid, ys.Nodup → (∀ y ∈ ys, (⟨u, .rel r, .cuds y⟩ : Triple) ∈ old) → ys.length ≤ kinds.length) →
        ∀ y, (⟨u, .rel r, .cuds y⟩ : Triple) ∈ old → (⟨u, .rel r, .cuds y⟩ : Triple) ∈ g') := by
  induction ds generalizing g with
  | nil =>
    refine ⟨g, rfl, hn, ?_, ?_, ?_⟩
    · intro t ht
      exact Or.inl ⟨ht, by rintro ⟨_, _, h, _⟩; simp at h⟩
    · exact fun t ht _ => ht
    · intro x r h; simp at h
  | cons d ds ih =>
    obtain ⟨x, r⟩ := d
    obtain ⟨g1, e1, n1, a1, b1, c1⟩ := fixOldOne_spec (O := O) hE reg u old x r g hn (hreg x r (by simp))
    obtain ⟨g2, e2, n2, a2, b2, c2⟩ := ih g1 n1 (fun y q h => hreg y q (List.mem_cons_of_mem _ h)) (fun y q h => hne y q (List.mem_cons_of_mem _ h))
    have hsplit : ∀ t, Removed O u ((x, r) :: ds) t ↔ Removed O u [(x, r)] t ∨ Removed O u ds t := by
      intro t
      constructor
      · rintro ⟨y, q, h, h'⟩
        rcases List.mem_cons.1 h with h | h
        · exact Or.inl ⟨y, q, by simp [h], h'⟩
        · exact Or.inr ⟨y, q, h, h'⟩
      · rintro (⟨y, q, h, h'⟩ | ⟨y, q, h, h'⟩)
        · exact ⟨y, q, by simp at h; simp [h], h'⟩
        · exact ⟨y, q, List.mem_cons_of_mem _ h, h'⟩
    refine ⟨g2, ?_, n2, ?_, ?_, ?_⟩
    · unfold fixOldNeighbors
      rw [e1]
      exact e2
    · intro t ht
      rcases a2 t ht with ⟨h, h'⟩ | h
      · rcases a1 t h with ⟨h1, h1'⟩ | h1
        · exact Or.inl ⟨h1, fun hr => ((hsplit t).1 hr).elim h1' h'⟩
        · exact Or.inr h1
      · exact Or.inr h
    · intro t ht hr
      exact b2 t (b1 t ht (fun h => hr ((hsplit t).2 (Or.inl h)))) (fun h => hr ((hsplit t).2 (Or.inr h)))
    · intro y q hd hna kinds hkn hk hys w hold
      rcases List.mem_cons.1 hd with he | hd
      · cases he
        have h1 := c1 hna hond kinds hkn (fun p hp => (hk p hp).imp fun _ h => h.1) hys w hold
        apply b2 _ h1
        rintro ⟨z, p, hz, _, e⟩
        have := hne z p (List.mem_cons_of_mem _ hz)
        simp only [Triple.mk.injEq] at e
        exact this e.1.symm
      · exact c2 y q hd hna kinds hkn (fun p hp => (hk p hp).imp fun o ⟨hm, hr⟩ =>
          ⟨b1 _ hm (fun h => hr ((hsplit _).2 (Or.inl h))), fun h => hr ((hsplit _).2 (Or.inr h))⟩) hys w hold

/-! ### how many old parents are restored -/

/-- One step changes links of the object at hand only by restoring at most as many neighbours as the other one has kinds of relationships. -/
theorem fixOldOne_few (hE : E.Ok) (reg : List Uid) (u : Uid) (old : Graph) (x : Uid) (r : Rel) {g g' : Graph}
    (h : fixOldOne E O reg u old x r g = .ok g') :
    (∀ z p o, z ≠ u → (⟨z, .rel p, o⟩ : Triple) ∈ g' → (⟨z, .rel p, o⟩ : Triple) ∈ g) ∧
    ∀ q y, (⟨u, .rel q, .cuds y⟩ : Triple) ∈ g' → (⟨u, .rel q, .cuds y⟩ : Triple) ∈ g ∨
      (r = q ∧ y ∈ (tgtsOf E old u q).take (neighborRels g x).length) := by
  unfold fixOldOne at h
  split at h
  · split at h
    · cases h
    · cases h
      have hsub : ∀ t, t ∈ (if O.inv r ∈ neighborRels g x then removeDirect g x (O.inv r) u else g) → t ∈ g := by
        intro t ht
        split at ht
        · exact (mem_removeDirect.1 ht).1
        · exact ht
      exact ⟨fun z p o _ ht => hsub _ ht, fun q y ht => Or.inl (hsub _ ht)⟩
  · have hg1 : (if r ∉ neighborRels g u then g.remove (some u) (some (.rel r)) none else g) = g := by
      split
      · rename_i hr
        apply gremove_eq_self
        rintro ⟨s, p, o⟩ ht
        rw [Bool.eq_false_iff, ne_eq, matchesPat_iff]
        intro hm
        have h1 := hm.1 _ rfl
        have h2 := hm.2.1 _ rfl
        simp only at h1 h2
        subst h1 h2
        exact hr (mem_neighborRels.2 ⟨_, ht⟩)
      · rfl
    simp only [hg1] at h
    split at h
    · cases h
    · cases h
      rw [foldl_zip_fst (fun g y => setTarget g u r y (oclasses old y)) (tgtsOf E old u r) (keysOf E g x) g]
      obtain ⟨f1, _⟩ := foldl_setTarget u r (oclasses old) ((tgtsOf E old u r).take (keysOf E g x).length) g
      have hlen : (keysOf E g x).length = (neighborRels g x).length := (hE.rels _).length_eq
      constructor
      · intro z p o hz ht
        rcases (f1 _).1 ht with ht | ⟨y, _, ht | ⟨c, _, ht⟩⟩
        · exact ht
        · cases ht; exact absurd rfl hz
        · cases ht
      · intro q y ht
        rcases (f1 _).1 ht with ht | ⟨w, hw, ht | ⟨c, _, ht⟩⟩
        · exact Or.inl ht
        · simp only [Triple.mk.injEq, Pred.rel.injEq, Obj.cuds.injEq, true_and] at ht
          obtain ⟨rfl, rfl⟩ := ht
          exact Or.inr ⟨rfl, hlen ▸ hw⟩
        · cases ht

/-- If the neighbours by `q` that are visited have at most `N` kinds of relationships each, at most `N` links by `q` are restored. -/
theorem fixOldNeighbors_few (hE : E.Ok) (reg : List Uid) (u : Uid) (old : Graph) (q : Rel) (N : Nat) (ds : List (Uid × Rel)) {g g' : Graph}
    (h : fixOldNeighbors E O reg u old ds g = .ok g') (hne : ∀ x r, (x, r) ∈ ds → x ≠ u)
    (hN : ∀ x, (x, q) ∈ ds → (neighborRels g x).length ≤ N) :
    ∀ y, (⟨u, .rel q, .cuds y⟩ : Triple) ∈ g' → (⟨u, .rel q, .cuds y⟩ : Triple) ∈ g ∨ y ∈ (tgtsOf E old u q).take N := by
  induction ds generalizing g with
  | nil => cases h; exact fun y hy => Or.inl hy
  | cons d ds ih =>
    obtain ⟨x, r⟩ := d
    unfold fixOldNeighbors at h
    split at h
    · cases h
    · rename_i g1 h1
      obtain ⟨k1, k2⟩ := fixOldOne_few hE reg u old x r h1
      have hkeep : ∀ z, z ≠ u → (neighborRels g1 z).length ≤ (neighborRels g z).length := by
        intro z hz
        refine (List.subperm_of_subset (nodup_neighborRels _ _) fun p hp => ?_).length_le
        obtain ⟨o, ho⟩ := mem_neighborRels.1 hp
        exact mem_neighborRels.2 ⟨o, k1 z p o hz ho⟩
      intro y hy
      rcases ih h (fun z p hz => hne z p (List.mem_cons_of_mem _ hz))
        (fun z hz => Nat.le_trans (hkeep z (hne z q (List.mem_cons_of_mem _ hz))) (hN z (List.mem_cons_of_mem _ hz))) y hy with hy | hy
      · rcases k2 q y hy with hy | ⟨rfl, hy⟩
        · exact Or.inl hy
        · refine Or.inr ?_
          exact (List.take_subset_take_left _ (hN x List.mem_cons_self)) hy
      · exact Or.inr hy

end Osp.Store
