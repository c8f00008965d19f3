import Verif.Search.Lemmas
import Verif.Cuds.Props
import Mathlib.Logic.Relation
/-!
# Properties of traversals (C22, C23, C26, C27, C60)
-/
namespace Osp.Search
open Osp.Cuds

/-- `x` is connected to `y` by `rel` or one of its sub relationships (`none`: by any relationship). -/
def Linked (O : Onto) (s : Sess) (rel : Option Rel) (x y : Uid) : Prop :=
  ∃ r, (⟨x, .rel r, .cuds y⟩ : Triple) ∈ s.g ∧ ∀ r', rel = some r' → O.subRel r r' = true

/-- Reachable from `x` over `rel`. -/
def Reaches (O : Onto) (s : Sess) (rel : Option Rel) : Uid → Uid → Prop := Relation.ReflTransGen (Linked O s rel)

/-- Reachable from `x` over `rel` without going through objects of `S`. -/
def ReachesAvoiding (O : Onto) (s : Sess) (rel : Option Rel) (S : List Uid) : Uid → Uid → Prop :=
  Relation.ReflTransGen (fun x y => Linked O s rel x y ∧ y ∉ S)

/-- Reachable in at most `d` steps. -/
inductive ReachesWithin (O : Onto) (s : Sess) (rel : Option Rel) (x : Uid) : Nat → Uid → Prop
  | refl (d) : ReachesWithin O s rel x d x
  | step {d y z} : ReachesWithin O s rel x d y → Linked O s rel y z → ReachesWithin O s rel x (d + 1) z

/-! ### from lists of children to links -/

theorem mem_children {O : Onto} (hW : O.WF) {s : Sess} (hs : Reachable O s) (rel : Option Rel) (x y : Uid) :
    y ∈ children O s rel x ↔ Linked O s rel x y := by
  obtain ⟨A, h, hco⟩ := reachable_view hW hs
  obtain ⟨l, h1, _, h3⟩ := get_by_filter h hco x rel none
  unfold children
  rw [h1]
  simp only [List.filterMap_map, Function.comp_def, id_eq, List.filterMap_some, h3, Linked, h.link]
  simp [Abs.selects]

theorem children_mem_reg {O : Onto} (hW : O.WF) {s : Sess} (hs : Reachable O s) (rel : Option Rel) :
    ∀ x ∈ s.reg, ∀ y ∈ children O s rel x, y ∈ s.reg := by
  intro x _ y hy
  obtain ⟨r, hr, _⟩ := (mem_children hW hs rel x y).1 hy
  exact ((links_symmetric hW hs x y r).2 hr).2

theorem reachAvoid_iff {O : Onto} (hW : O.WF) {s : Sess} (hs : Reachable O s) (rel : Option Rel) (S : List Uid) (x y : Uid) :
    ReachAvoid (children O s rel) (· ∈ S) x y ↔ ReachesAvoiding O s rel S x y := by
  constructor
  · rintro ⟨n, hp⟩
    induction hp with
    | refl => exact .refl
    | step _ h1 h2 ih => exact ih.tail ⟨(mem_children hW hs rel _ _).1 h1, h2⟩
  · intro h
    induction h with
    | refl => exact ⟨0, .refl _⟩
    | tail _ h1 ih =>
      obtain ⟨n, hp⟩ := ih
      exact ⟨n + 1, .step hp ((mem_children hW hs rel _ _).2 h1.1) h1.2⟩

theorem reach_iff {O : Onto} (hW : O.WF) {s : Sess} (hs : Reachable O s) (rel : Option Rel) (x y : Uid) :
    Reach (children O s rel) x y ↔ Reaches O s rel x y := by
  constructor
  · rintro ⟨n, hp⟩
    induction hp with
    | refl => exact .refl
    | step _ h1 h2 ih => exact ih.tail ((mem_children hW hs rel _ _).1 h1)
  · intro h
    induction h with
    | refl => exact ⟨0, .refl _⟩
    | tail _ h1 ih =>
      obtain ⟨n, hp⟩ := ih
      exact ⟨n + 1, .step hp ((mem_children hW hs rel _ _).2 h1) (by simp)⟩

theorem within_iff {O : Onto} (hW : O.WF) {s : Sess} (hs : Reachable O s) (rel : Option Rel) (d : Nat) (x y : Uid) :
    Within (children O s rel) x d y ↔ ReachesWithin O s rel x d y := by
  have mono : ∀ d d' z, d ≤ d' → ReachesWithin O s rel x d z → ReachesWithin O s rel x d' z := by
    intro d d' z hd hz
    induction hz generalizing d' with
    | refl => exact .refl _
    | step _ h1 ih =>
      cases d' with
      | zero => omega
      | succ d' => exact .step (ih d' (by omega)) h1
  constructor
  · rintro ⟨n, hn, hp⟩
    refine mono n d y hn ?_
    clear hn
    induction hp with
    | refl => exact .refl _
    | step _ h1 _ ih => exact .step ih ((mem_children hW hs rel _ _).1 h1)
  · intro h
    induction h with
    | refl => exact ⟨0, by omega, .refl _⟩
    | step _ h1 ih =>
      obtain ⟨n, hn, hp⟩ := ih
      exact ⟨n + 1, by omega, .step hp ((mem_children hW hs rel _ _).2 h1) (by simp)⟩

theorem left_le (U S : List Uid) : left U S ≤ U.length := List.length_filter_le _ _

/-! ### C23 -/

/-- `get_subtree` terminates on every session graph, cyclic or not, with recursion depth at most the number of objects, and returns exactly the objects
reachable from the root by links of the relationship that avoid the skipped objects. -/
theorem get_subtree_exact {O : Onto} (hW : O.WF) {s : Sess} (hs : Reachable O s) (rel : Option Rel) (root : Uid) (hroot : root ∈ s.reg)
    (skip : List Uid) (fuel : Nat) (hf : s.reg.length + 1 ≤ fuel) :
    ∃ T, getSubtree (children O s rel) fuel root skip = some T ∧ ∀ x, x ∈ T ↔ ReachesAvoiding O s rel skip root x := by
  obtain ⟨T, hT⟩ := getSubtree_some s.reg (children_mem_reg hW hs rel) fuel root skip hroot
    (by have := left_le s.reg (root :: skip); omega)
  exact ⟨T, hT, fun x => by rw [(getSubtree_ok fuel root skip T hT).mem_iff, reachAvoid_iff hW hs]⟩

/-! ### C22 -/

theorem foldl_deleteTriples (del : List Uid) (s : Sess) :
    (∀ t, t ∈ (del.foldl deleteTriples s).g ↔ t ∈ s.g ∧ t.s ∉ del) ∧ (∀ u, u ∈ (del.foldl deleteTriples s).reg ↔ u ∈ s.reg ∧ u ∉ del) := by
  induction del generalizing s with
  | nil => simp
  | cons d del ih =>
    rw [List.foldl_cons]
    obtain ⟨h1, h2⟩ := ih (deleteTriples s d)
    refine ⟨?_, ?_⟩
    · intro t
      rw [h1]
      simp only [deleteTriples, mem_gremove, Bool.eq_false_iff, ne_eq, matchesPat_iff, List.mem_cons, not_or]
      constructor
      · rintro ⟨⟨a, b⟩, c⟩
        refine ⟨a, ?_, c⟩
        rintro rfl
        exact b (by simp)
      · rintro ⟨a, b, c⟩
        exact ⟨⟨a, fun hh => b (hh.1 _ rfl).symm⟩, c⟩
    · intro u
      rw [h2]
      simp only [deleteTriples, List.mem_filter, decide_eq_true_eq, List.mem_cons, not_or, ne_eq]
      constructor
      · rintro ⟨⟨a, b⟩, c⟩; exact ⟨a, b, c⟩
      · rintro ⟨a, b, c⟩; exact ⟨⟨a, b⟩, c⟩

/-- `prune(rel)` keeps exactly the objects the root reaches over `rel`, with all their triples, and removes all triples of the others. -/
theorem prune_exact {O : Onto} (hW : O.WF) {s : Sess} (hs : Reachable O s) (rel : Option Rel) (root : Uid) (hr : s.root = some root)
    (hroot : root ∈ s.reg) (fuel : Nat) (hf : s.reg.length + 1 ≤ fuel) :
    ∃ s', prune O s fuel rel = some ⟨.ok (), s'⟩ ∧
      (∀ u, u ∈ s'.reg ↔ u ∈ s.reg ∧ Reaches O s rel root u) ∧
      (∀ t, t ∈ s'.g ↔ t ∈ s.g ∧ Reaches O s rel root t.s) := by
  obtain ⟨T, hT, hm⟩ := get_subtree_exact hW hs rel root hroot [] fuel hf
  have hm' : ∀ x, x ∈ T ↔ Reaches O s rel root x := by
    intro x
    rw [hm, ← reachAvoid_iff hW hs, ← reach_iff hW hs]
    simp [Reach]
  refine ⟨(s.reg.filter (· ∉ T)).foldl deleteTriples s, ?_, ?_, ?_⟩
  · unfold prune
    rw [hr]
    simp only [hroot, not_true_eq_false, ↓reduceIte]
    unfold getNotReachable reachableLoop
    rw [hT]
    simp [reachableLoop]
  · intro u
    rw [(foldl_deleteTriples _ s).2, ← hm']
    simp only [List.mem_filter, decide_eq_true_eq, not_and, Decidable.not_not]
    exact ⟨fun ⟨a, b⟩ => ⟨a, b a⟩, fun ⟨a, b⟩ => ⟨a, fun _ => b⟩⟩
  · intro t
    rw [(foldl_deleteTriples _ s).1, ← hm']
    simp only [List.mem_filter, decide_eq_true_eq, not_and, Decidable.not_not]
    constructor
    · rintro ⟨a, b⟩
      refine ⟨a, b ?_⟩
      obtain ⟨A, h, hco⟩ := reachable_view hW hs
      rw [h.reg]
      obtain ⟨ts, tp, t3⟩ := t
      rcases h.kinds _ a with ⟨c, hp, ho⟩ | ⟨a', v, hp, ho⟩ | ⟨q, x, hp, ho⟩ <;> simp only at hp ho <;> subst hp ho
      · rw [(h.type _ _).1 a]; simp
      · exact h.owned _ a' (by rw [(h.attr _ _ _).1 a]; simp)
      · exact hco.src _ _ _ ((h.link _ _ _).1 a)
    · rintro ⟨a, b⟩; exact ⟨a, fun _ => b⟩

/-- Without a relationship filter no link into the removed part survives: the pruned session still has only symmetric links between registered
objects. -/
theorem prune_all_no_dangling {O : Onto} (hW : O.WF) {s s' : Sess} (hs : Reachable O s) (root : Uid) (hr : s.root = some root)
    (hroot : root ∈ s.reg) (fuel : Nat) (hf : s.reg.length + 1 ≤ fuel) (hp : prune O s fuel none = some ⟨.ok (), s'⟩) (a b : Uid) (r : Rel)
    (hl : (⟨a, .rel r, .cuds b⟩ : Triple) ∈ s'.g) : b ∈ s'.reg ∧ (⟨b, .rel (O.inv r), .cuds a⟩ : Triple) ∈ s'.g := by
  obtain ⟨s'', h1, h2, h3⟩ := prune_exact hW hs none root hr hroot fuel hf
  rw [hp] at h1
  cases h1
  obtain ⟨k1, k2⟩ := (h3 _).1 hl
  obtain ⟨k3, k4⟩ := links_symmetric hW hs a b r
  have hab : Reaches O s none root b := k2.tail ⟨r, k1, by simp⟩
  exact ⟨(h2 b).2 ⟨(k4 k1).2, hab⟩, (h3 _).2 ⟨k3.1 k1, hab⟩⟩

/-- With a filter, links by other relationships from kept to removed objects stay in the graph and dangle. -/
theorem prune_filter_leaves_dangling_links :
    let s := (run exOnto {} [.create 1 5 [], .create 2 5 [], .add 1 [2] (some 2) none]).2
    ∃ s', prune exOnto s 10 (some 1) = some ⟨.ok (), s'⟩ ∧ (⟨1, .rel 2, .cuds 2⟩ : Triple) ∈ s'.g ∧ 2 ∉ s'.reg := by
  refine ⟨_, rfl, ?_, ?_⟩ <;> decide

/-! ### C26 -/

/-- `find_cuds_object(find_all=True)` without depth limit: every reachable match exactly once, nothing else. -/
theorem find_all_exact {O : Onto} (hW : O.WF) {s : Sess} (hs : Reachable O s) (rel : Option Rel) (crit : Uid → Bool) (root : Uid)
    (hroot : root ∈ s.reg) (fuel : Nat) (hf : s.reg.length + 1 ≤ fuel) :
    ∃ out V, findAll (children O s rel) crit fuel none root [] = some (out, V) ∧ out.Nodup ∧
      ∀ x, x ∈ out ↔ Reaches O s rel root x ∧ crit x = true := by
  obtain ⟨⟨out, V⟩, hR⟩ := findAll_some (crit := crit) s.reg (children_mem_reg hW hs rel) fuel none root [] hroot
    (by have := left_le s.reg [root]; omega)
  have hk := findAll_none_ok fuel root [] out V (by simp) hR
  refine ⟨out, V, hR, hk.out_nodup, ?_⟩
  intro x
  rw [hk.out_mem]
  have : x ∈ V ↔ Reaches O s rel root x := by
    rw [← reach_iff hW hs]
    constructor
    · intro hx; exact (hk.sound x hx).resolve_left (by simp)
    · rintro ⟨n, hp⟩
      induction hp with
      | refl => exact hk.root_mem
      | step _ h1 _ ih => exact hk.closed _ ih (by simp) trivial _ h1
  simp [this]

/-- `find_cuds_object(find_all=False)`: some reachable match, and `None` exactly if there is none. -/
theorem find_first_exact {O : Onto} (hW : O.WF) {s : Sess} (hs : Reachable O s) (rel : Option Rel) (crit : Uid → Bool) (root : Uid)
    (hroot : root ∈ s.reg) (fuel : Nat) (hf : s.reg.length + 1 ≤ fuel) :
    ∃ res V, findFirst (children O s rel) crit fuel root [] = some (res, V) ∧
      (∀ x, res = some x → Reaches O s rel root x ∧ crit x = true) ∧
      (res = none ↔ ∀ x, Reaches O s rel root x → crit x = false) := by
  obtain ⟨out, V, h1, _, h3⟩ := find_all_exact hW hs rel crit root hroot fuel hf
  obtain ⟨W, h4, _⟩ := findFirst_eq fuel root [] out V h1
  refine ⟨_, W, h4, ?_, ?_⟩
  · intro x hx
    exact (h3 x).1 (List.mem_of_mem_head? hx)
  · rw [List.head?_eq_none_iff]
    constructor
    · rintro rfl x hx
      cases hc : crit x with
      | false => rfl
      | true => exact absurd ((h3 x).2 ⟨hx, hc⟩) (by simp)
    · intro hno
      cases out with
      | nil => rfl
      | cons x xs =>
        have := (h3 x).1 (by simp)
        rw [hno x this.1] at this
        exact absurd this.2 (by simp)

/-- With `max_depth = d`: terminates, no duplicates, every returned object matches and is within distance `d`. -/
theorem find_depth_sound {O : Onto} (hW : O.WF) {s : Sess} (hs : Reachable O s) (rel : Option Rel) (crit : Uid → Bool) (root : Uid) (d : Nat)
    (hroot : root ∈ s.reg) (fuel : Nat) (hf : s.reg.length + 1 ≤ fuel) :
    ∃ out V, findAll (children O s rel) crit fuel (some d) root [] = some (out, V) ∧ out.Nodup ∧
      ∀ x ∈ out, ReachesWithin O s rel root d x ∧ crit x = true := by
  obtain ⟨⟨out, V⟩, hR⟩ := findAll_some (crit := crit) s.reg (children_mem_reg hW hs rel) fuel (some d) root [] hroot
    (by have := left_le s.reg [root]; omega)
  obtain ⟨k1, k2, k3, k4⟩ := findAll_within fuel d root [] out V (by simp) hR
  refine ⟨out, V, hR, k2, ?_⟩
  intro x hx
  obtain ⟨a, _, c⟩ := (k1 x).1 hx
  exact ⟨(within_iff hW hs rel d root x).1 ((k4 x a).resolve_left (by simp)), c⟩

/-! ### C27 -/

/-- Depth limited search is complete when every object has a fixed level, i.e. all paths to it have the same length (trees in particular). Missing: the
general claim, which is false of the code, see `find_depth_incomplete`. -/
theorem find_depth_complete_partial {O : Onto} (hW : O.WF) {s : Sess} (hs : Reachable O s) (rel : Option Rel) (crit : Uid → Bool) (root : Uid)
    (d : Nat) (hroot : root ∈ s.reg) (fuel : Nat) (hf : s.reg.length + 1 ≤ fuel)
    (lvl : Uid → Nat) (hl : ∀ x y, Linked O s rel x y → lvl y = lvl x + 1) :
    ∃ out V, findAll (children O s rel) crit fuel (some d) root [] = some (out, V) ∧
      ∀ x, x ∈ out ↔ ReachesWithin O s rel root d x ∧ crit x = true := by
  obtain ⟨out, V, hR, hn, hsound⟩ := find_depth_sound hW hs rel crit root d hroot fuel hf
  refine ⟨out, V, hR, ?_⟩
  have hk := findAll_level_ok lvl (fun x y hy => hl x y ((mem_children hW hs rel x y).1 hy)) (lvl root + d) fuel d root [] out V (by simp) rfl hR
  intro x
  refine ⟨hsound x, ?_⟩
  rintro ⟨hx, hc⟩
  rw [hk.out_mem]
  refine ⟨?_, by simp, hc⟩
  obtain ⟨n, hn', hp⟩ := (within_iff hW hs rel d root x).2 hx
  have hlv : ∀ (y : Uid) (m : Nat), Path (children O s rel) (fun _ => False) root y m → lvl y = lvl root + m := by
    intro y m hpm
    induction hpm with
    | refl => rfl
    | step _ h1 _ ih => have := hl _ _ ((mem_children hW hs rel _ _).1 h1); omega
  have key : ∀ (y : Uid) (m : Nat), m ≤ d → Path (children O s rel) (fun _ => False) root y m → y ∈ V := by
    intro y m hm hpm
    induction hpm with
    | refl => exact hk.root_mem
    | step hp' h1 _ ih =>
      refine hk.closed _ (ih (by omega)) (by simp) ?_ _ h1
      have := hlv _ _ hp'
      omega
  exact key x n hn' hp

/-- The general claim is false: a node first met at the depth limit over a long path is marked visited and never expanded, so matches below it that
are within the limit over a shorter path are lost. Here 1→2→3, 1→3→4: with `max_depth=2` object 4 (distance 2) is not found. -/
theorem find_depth_incomplete :
    let s := (run exOnto {} [.create 1 5 [], .create 2 5 [], .create 3 5 [], .create 4 5 [], .add 1 [2, 3] (some 1) none,
      .add 2 [3] (some 1) none, .add 3 [4] (some 1) none]).2
    ReachesWithin exOnto s (some 1) 1 2 4 ∧
    ∃ V, findAll (children exOnto s (some 1)) (fun u => u = 4) 10 (some 2) 1 [] = some ([], V) := by
  refine ⟨.step (y := 3) (.step (y := 1) (.refl 0) ⟨1, by decide, by decide⟩) ⟨1, by decide, by decide⟩, ⟨_, rfl⟩⟩

/-! ### C60 recursive deletion -/

theorem reachable_delete {O : Onto} {s : Sess} (hs : Reachable O s) (u : Uid) (hu : u ∈ s.reg) : Reachable O (delete O s u).st :=
  .step hs (.delete u) hu

theorem deleteAll_exact {O : Onto} (hW : O.WF) (us : List Uid) {s : Sess} (hs : Reachable O s) (hn : us.Nodup) (hu : ∀ u ∈ us, u ∈ s.reg) :
    (deleteAll O us s).res = .ok () ∧
    (∀ t, t ∈ (deleteAll O us s).st.g ↔ t ∈ s.g ∧ t.s ∉ us ∧ ∀ u ∈ us, t.o ≠ .cuds u) ∧
    (∀ v, v ∈ (deleteAll O us s).st.reg ↔ v ∈ s.reg ∧ v ∉ us) := by
  induction us generalizing s with
  | nil => simp [deleteAll]
  | cons u us ih =>
    rw [List.nodup_cons] at hn
    obtain ⟨h1, h2, h3⟩ := delete_exact hW hs u
    have hr := reachable_delete hs u (hu u (by simp))
    have hus : ∀ v ∈ us, v ∈ (delete O s u).st.reg := by
      intro v hv
      rw [h3]
      exact ⟨hu v (by simp [hv]), fun e => hn.1 (e ▸ hv)⟩
    unfold deleteAll
    obtain ⟨k1, k2, k3⟩ := ih hr hn.2 hus
    revert k1 k2 k3
    generalize delete O s u = R at h1 h2 h3
    obtain ⟨res, s'⟩ := R
    simp only at h1 h2 h3
    subst h1
    simp only
    intro k1 k2 k3
    refine ⟨k1, ?_, ?_⟩
    · intro t
      rw [k2, h2]
      simp only [List.mem_cons, not_or, forall_eq_or_imp]
      constructor
      · rintro ⟨⟨a, b, c⟩, d, e⟩; exact ⟨a, ⟨b, d⟩, c, e⟩
      · rintro ⟨a, ⟨b, d⟩, c, e⟩; exact ⟨⟨a, b, c⟩, d, e⟩
    · intro v
      rw [k3, h3]
      simp only [List.mem_cons, not_or]
      constructor
      · rintro ⟨⟨a, b⟩, c⟩; exact ⟨a, b, c⟩
      · rintro ⟨a, b, c⟩; exact ⟨⟨a, b⟩, c⟩

theorem reaches_mem_reg {O : Onto} (hW : O.WF) {s : Sess} (hs : Reachable O s) {rel : Option Rel} {x y : Uid} (hx : x ∈ s.reg)
    (h : Reaches O s rel x y) : y ∈ s.reg := by
  induction h with
  | refl => exact hx
  | tail _ h1 _ =>
    obtain ⟨r, hr, _⟩ := h1
    exact ((links_symmetric hW hs _ _ r).2 hr).2

/-- `delete_cuds_object_recursively(u, rel)` removes exactly the objects reachable from `u` over `rel` and every triple that mentions one of them. -/
theorem delete_recursively_exact {O : Onto} (hW : O.WF) {s : Sess} (hs : Reachable O s) (rel : Option Rel) (u : Uid) (hu : u ∈ s.reg)
    (fuel : Nat) (hf : s.reg.length + 1 ≤ fuel) :
    ∃ s', deleteRecursively O s fuel rel none u = some ⟨.ok (), s'⟩ ∧
      (∀ v, v ∈ s'.reg ↔ v ∈ s.reg ∧ ¬ Reaches O s rel u v) ∧
      (∀ t, t ∈ s'.g ↔ t ∈ s.g ∧ ¬ Reaches O s rel u t.s ∧ ∀ v, t.o = .cuds v → ¬ Reaches O s rel u v) := by
  obtain ⟨out, V, h1, h2, h3⟩ := find_all_exact hW hs rel (fun _ => true) u hu fuel hf
  simp only [and_true] at h3
  obtain ⟨k1, k2, k3⟩ := deleteAll_exact hW out hs h2 (fun v hv => reaches_mem_reg hW hs hu ((h3 v).1 hv))
  refine ⟨(deleteAll O out s).st, ?_, ?_, ?_⟩
  · unfold deleteRecursively
    rw [h1, Option.map_some, ← k1]
  · intro v; rw [k3, h3]
  · intro t
    rw [k2]
    simp only [h3]
    constructor
    · rintro ⟨a, b, c⟩; exact ⟨a, b, fun v hv hr => c v hr hv⟩
    · rintro ⟨a, b, c⟩; exact ⟨a, b, fun v hr hv => c v hv hr⟩

/-! ### Non-vacuity: a cyclic session -/

def exCyc : Sess := (run exOnto {} [.create 1 5 [], .create 2 5 [], .create 3 5 [], .create 4 5 [], .add 1 [2] (some 1) none,
  .add 2 [3] (some 1) none, .add 3 [1] (some 1) none]).2

/-- `run` only goes through reachable states. -/
theorem reachable_run {O : Onto} (ops : List Op) {s : Sess} (hs : Reachable O s) (hok : AllOk O s ops) : Reachable O (run O s ops).2 := by
  induction ops generalizing s with
  | nil => exact hs
  | cons op ops ih => exact ih (.step hs op hok.1) hok.2

example : Reachable exOnto exCyc := by
  apply reachable_run _ .init
  repeat' constructor
  all_goals decide

example : getSubtree (children exOnto exCyc (some 1)) 5 1 [] = some [1, 2, 3] := by decide
example : getSubtree (children exOnto exCyc (some 1)) 5 1 [3] = some [1, 2] := by decide
example : (prune exOnto exCyc 5 (some 1)).map (fun o => o.st.reg) = some [1, 2, 3] := by decide
example : (findAll (children exOnto exCyc (some 1)) (fun u => u % 2 = 1) 5 none 2 []).map (·.1) = some [3, 1] := by decide
example : (deleteRecursively exOnto exCyc 5 (some 1) none 2).map (fun o => o.st.reg) = some [4] := by decide

end Osp.Search
