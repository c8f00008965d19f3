import Verif.Show.Model
import Verif.Search.Props
/-!
# Traversals: what they show
-/
namespace Osp.Show
open Osp.Cuds Osp.Search

/-- The objects shown in detail. -/
def nodes (es : List Ev) : List Uid := es.filterMap fun e => match e with
  | .node y => some y
  | _ => none

/-- The links shown. -/
def edges (es : List Ev) : List (Uid × Rel × Uid) := es.filterMap fun e => match e with
  | .edge x r y => some (x, r, y)
  | _ => none

/-- The links of an object, in the order of `items`. -/
def linksOf (items : Uid → List (List Rel × Uid)) (x : Uid) : List (Uid × Rel × Uid) :=
  (items x).flatMap fun it => it.1.map fun r => (x, r, it.2)

@[simp] theorem nodes_append (a b : List Ev) : nodes (a ++ b) = nodes a ++ nodes b := List.filterMap_append
@[simp] theorem edges_append (a b : List Ev) : edges (a ++ b) = edges a ++ edges b := List.filterMap_append
@[simp] theorem nodes_node (y : Uid) (e : List Ev) : nodes (.node y :: e) = y :: nodes e := rfl
@[simp] theorem nodes_seen (y : Uid) (e : List Ev) : nodes (.seen y :: e) = nodes e := rfl
@[simp] theorem edges_node (y : Uid) (e : List Ev) : edges (.node y :: e) = edges e := rfl
@[simp] theorem edges_seen (y : Uid) (e : List Ev) : edges (.seen y :: e) = edges e := rfl
@[simp] theorem nodes_map (x y : Uid) (rs : List Rel) : nodes (rs.map fun r => .edge x r y) = [] := by
  induction rs with
  | nil => rfl
  | cons r rs ih => exact ih
@[simp] theorem edges_map (x y : Uid) (rs : List Rel) : edges (rs.map fun r => .edge x r y) = rs.map fun r => (x, r, y) := by
  induction rs with
  | nil => rfl
  | cons r rs ih => exact congrArg (_ :: ·) ih

/-- The traversal visits what the search visits, in the same order. -/
theorem findAll_walk (items : Uid → List (List Rel × Uid)) (fuel : Nat) (x : Uid) (v : List Uid) :
    findAll (fun z => (items z).map (·.2)) (fun _ => true) fuel none x v = (walk items fuel x v).map fun r => (x :: nodes r.1, r.2) := by
  induction fuel generalizing x v with
  | zero => rfl
  | succ fuel ih =>
    have key : ∀ (its : List (List Rel × Uid)) (v : List Uid) (out : List Uid),
        findLoop (findAll (fun z => (items z).map (·.2)) (fun _ => true) fuel none) (its.map (·.2)) v out =
        (walkLoop (walk items fuel) x its v).map fun r => (out ++ nodes r.1, r.2) := by
      intro its
      induction its with
      | nil => intro v out; simp [findLoop, walkLoop, nodes]
      | cons it its ihl =>
        intro v out
        obtain ⟨rs, y⟩ := it
        simp only [List.map_cons, findLoop, walkLoop]
        split
        · rw [ihl]
          cases walkLoop (walk items fuel) x its v with
          | none => rfl
          | some r => simp
        · rw [ih]
          cases hw : walk items fuel y v with
          | none => rfl
          | some r =>
            obtain ⟨e, v'⟩ := r
            simp only [Option.map_some]
            rw [ihl]
            cases walkLoop (walk items fuel) x its v' with
            | none => rfl
            | some r => simp
    simp only [findAll, walk]
    rw [key]
    simp

/-- Every shown object's links are shown, and no others. -/
theorem walk_edges (items : Uid → List (List Rel × Uid)) (fuel : Nat) (x : Uid) (v : List Uid) (es : List Ev) (v' : List Uid)
    (h : walk items fuel x v = some (es, v')) : (edges es).Perm ((x :: nodes es).flatMap (linksOf items)) := by
  induction fuel generalizing x v es v' with
  | zero => cases h
  | succ fuel ih =>
    have key : ∀ (its : List (List Rel × Uid)) (v : List Uid) (es : List Ev) (v' : List Uid), walkLoop (walk items fuel) x its v = some (es, v') →
        (edges es).Perm ((its.flatMap fun it => it.1.map fun r => (x, r, it.2)) ++ (nodes es).flatMap (linksOf items)) := by
      intro its
      induction its with
      | nil => intro v es v' h; simp only [walkLoop, Option.some.injEq, Prod.mk.injEq] at h; rw [← h.1]; simp [edges, nodes]
      | cons it its ihl =>
        obtain ⟨rs, y⟩ := it
        intro v es v' h
        simp only [walkLoop] at h
        split at h
        · cases hl : walkLoop (walk items fuel) x its v with
          | none => rw [hl] at h; cases h
          | some r =>
            obtain ⟨e, w⟩ := r
            rw [hl] at h
            simp only [Option.some.injEq, Prod.mk.injEq] at h
            rw [← h.1]
            simp only [edges_append, edges_map, edges_seen, nodes_append, nodes_map, nodes_seen, List.nil_append, List.flatMap_cons, List.append_assoc]
            exact (ihl v e w hl).append_left _
        · cases hr : walk items fuel y v with
          | none => rw [hr] at h; cases h
          | some r =>
            obtain ⟨e1, w1⟩ := r
            rw [hr] at h
            simp only at h
            cases hl : walkLoop (walk items fuel) x its w1 with
            | none => rw [hl] at h; cases h
            | some r =>
              obtain ⟨e, w⟩ := r
              rw [hl] at h
              simp only [Option.some.injEq, Prod.mk.injEq] at h
              rw [← h.1]
              simp only [edges_append, edges_map, edges_node, nodes_append, nodes_map, nodes_node, List.nil_append, List.flatMap_cons, List.append_assoc,
                List.flatMap_append]
              refine List.Perm.append_left _ ?_
              have h1 := ih y v e1 w1 hr
              have h2 := ihl w1 e w hl
              refine (h1.append h2).trans ?_
              simp only [List.flatMap_cons, List.append_assoc]
              refine List.perm_iff_count.2 fun a => ?_
              simp only [List.count_append]
              omega
    simp only [walk] at h
    exact key _ _ _ _ h

/-- What a traversal of a session shows: every object that can be reached, once, and every link of these, once. -/
theorem walk_exact {O : Onto} (hW : O.WF) {s : Sess} (hs : Reachable O s) (rel : Option Rel) (items : Uid → List (List Rel × Uid)) (root : Uid)
    (hit : ∀ x, Reaches O s rel root x → (linksOf items x).Nodup ∧
      ∀ r y, (x, r, y) ∈ linksOf items x ↔ (⟨x, .rel r, .cuds y⟩ : Triple) ∈ s.g ∧ ∀ r', rel = some r' → O.subRel r r' = true)
    (hne : ∀ x, Reaches O s rel root x → ∀ it ∈ items x, it.1 ≠ []) (hroot : root ∈ s.reg) (fuel : Nat) (hf : s.reg.length + 1 ≤ fuel) :
    ∃ es V, walk items fuel root [] = some (es, V) ∧ (root :: nodes es).Nodup ∧ (∀ x, x ∈ root :: nodes es ↔ Reaches O s rel root x) ∧
      (edges es).Nodup ∧
      ∀ x r y, (x, r, y) ∈ edges es ↔
        Reaches O s rel root x ∧ (⟨x, .rel r, .cuds y⟩ : Triple) ∈ s.g ∧ ∀ r', rel = some r' → O.subRel r r' = true := by
  classical
  have hsucc : ∀ x, Reaches O s rel root x → ∀ y, y ∈ (items x).map (·.2) ↔ Linked O s rel x y := by
    intro x hx y
    constructor
    · intro h
      obtain ⟨⟨rs, _⟩, h1, rfl⟩ := List.mem_map.1 h
      cases hrs : rs with
      | nil => exact absurd hrs (hne x hx _ h1)
      | cons r rs' =>
        exact ⟨r, ((hit x hx).2 r _).1 (List.mem_flatMap.2 ⟨_, h1, List.mem_map.2 ⟨r, by simp [hrs], rfl⟩⟩)⟩
    · rintro ⟨r, h1⟩
      obtain ⟨it, h2, h3⟩ := List.mem_flatMap.1 (((hit x hx).2 r y).2 h1)
      obtain ⟨r', _, h4⟩ := List.mem_map.1 h3
      cases h4
      exact List.mem_map.2 ⟨it, h2, rfl⟩
  have hreg : ∀ x, Reaches O s rel root x → x ∈ s.reg := fun x hx => reaches_mem_reg hW hs hroot hx
  have hU : ∀ x, x ∈ s.reg.filter (fun x => decide (Reaches O s rel root x)) ↔ Reaches O s rel root x := by
    intro x
    rw [List.mem_filter, decide_eq_true_eq]
    exact ⟨fun h => h.2, fun h => ⟨hreg x h, h⟩⟩
  obtain ⟨⟨out, V⟩, hR⟩ := findAll_some (succ := fun z => (items z).map (·.2)) (crit := fun _ => true)
    (s.reg.filter (fun x => decide (Reaches O s rel root x)))
    (fun x hx y hy => (hU y).2 (((hU x).1 hx).tail ((hsucc x ((hU x).1 hx) y).1 hy))) fuel none root [] ((hU root).2 .refl)
    (by
      have h1 := left_le (s.reg.filter (fun x => decide (Reaches O s rel root x))) [root]
      have h2 := List.length_filter_le (fun x => decide (Reaches O s rel root x)) s.reg
      omega)
  have hk := findAll_none_ok fuel root [] out V (by simp) hR
  rw [findAll_walk] at hR
  cases hw : walk items fuel root [] with
  | none => rw [hw] at hR; cases hR
  | some p =>
    obtain ⟨es, V'⟩ := p
    rw [hw] at hR
    simp only [Option.map_some, Option.some.injEq, Prod.mk.injEq] at hR
    obtain ⟨rfl, rfl⟩ := hR
    have hreach : ∀ x, x ∈ root :: nodes es ↔ Reaches O s rel root x := by
      intro x
      rw [hk.out_mem]
      constructor
      · intro hx
        obtain ⟨n, hp⟩ := (hk.sound x hx.1).resolve_left (by simp)
        clear hx
        induction hp with
        | refl => exact .refl
        | step hp h1 _ ih => exact ih.tail ((hsucc _ ih _).1 h1)
      · intro hx
        refine ⟨?_, by simp, rfl⟩
        induction hx with
        | refl => exact hk.root_mem
        | tail h1 h2 ih => exact hk.closed _ ih (by simp) trivial _ ((hsucc _ h1 _).2 h2)
    have hp := walk_edges items fuel root [] es V' hw
    have hmem : ∀ x r y, (x, r, y) ∈ edges es ↔
        Reaches O s rel root x ∧ (⟨x, .rel r, .cuds y⟩ : Triple) ∈ s.g ∧ ∀ r', rel = some r' → O.subRel r r' = true := by
      intro x r y
      rw [hp.mem_iff, List.mem_flatMap]
      constructor
      · rintro ⟨z, hz, h1⟩
        have hz' := (hreach z).1 hz
        have : z = x := by
          obtain ⟨it, _, h3⟩ := List.mem_flatMap.1 h1
          obtain ⟨_, _, h4⟩ := List.mem_map.1 h3
          cases h4; rfl
        subst this
        exact ⟨hz', ((hit z hz').2 r y).1 h1⟩
      · rintro ⟨h1, h2⟩
        exact ⟨x, (hreach x).2 h1, ((hit x h1).2 r y).2 h2⟩
    refine ⟨es, V', rfl, hk.out_nodup, hreach, ?_, hmem⟩
    rw [hp.nodup_iff]
    have hreg : ∀ x ∈ root :: nodes es, Reaches O s rel root x := fun x hx => (hreach x).1 hx
    have hn := hk.out_nodup
    clear hk hw hp hreach hmem
    generalize root :: nodes es = l at hreg hn
    induction l with
    | nil => simp
    | cons x l ih =>
      rw [List.nodup_cons] at hn
      rw [List.flatMap_cons, List.nodup_append]
      refine ⟨(hit x (hreg x (by simp))).1, ih (fun z hz => hreg z (List.mem_cons_of_mem _ hz)) hn.2, ?_⟩
      rintro a ha b hb rfl
      obtain ⟨it, _, h3⟩ := List.mem_flatMap.1 ha
      obtain ⟨_, _, rfl⟩ := List.mem_map.1 h3
      obtain ⟨z, hz, h5⟩ := List.mem_flatMap.1 hb
      obtain ⟨it', _, h6⟩ := List.mem_flatMap.1 h5
      obtain ⟨_, _, h7⟩ := List.mem_map.1 h6
      have : z = x := congrArg Prod.fst h7
      subst this
      exact hn.1 hz

/-! ### "already printed" is true -/

/-- Objects that are marked as met before are in `v` or were shown before. -/
def Truthful : List Uid → List Ev → Prop
  | _, [] => True
  | v, .seen y :: e => y ∈ v ∧ Truthful v e
  | v, .node y :: e => Truthful (y :: v) e
  | v, .edge _ _ _ :: e => Truthful v e

theorem Truthful.mono {v w : List Uid} {e : List Ev} (h : Truthful v e) (hvw : ∀ x ∈ v, x ∈ w) : Truthful w e := by
  induction e generalizing v w with
  | nil => trivial
  | cons a e ih =>
    cases a with
    | seen y => exact ⟨hvw _ h.1, ih h.2 hvw⟩
    | node y =>
      refine ih (v := y :: v) h fun x hx => ?_
      rcases List.mem_cons.1 hx with rfl | hx
      · exact List.mem_cons_self ..
      · exact List.mem_cons_of_mem _ (hvw x hx)
    | edge x r y => exact ih (v := v) h hvw

theorem Truthful.append {v : List Uid} {a b : List Ev} (ha : Truthful v a) (hb : Truthful (nodes a ++ v) b) : Truthful v (a ++ b) := by
  induction a generalizing v with
  | nil => exact hb
  | cons e a ih =>
    cases e with
    | seen y => exact ⟨ha.1, ih ha.2 hb⟩
    | node y =>
      refine ih (v := y :: v) ha (hb.mono fun x hx => ?_)
      simp only [nodes_node, List.cons_append, List.mem_cons, List.mem_append] at hx ⊢
      rcases hx with h | h | h
      · exact Or.inr (Or.inl h)
      · exact Or.inl h
      · exact Or.inr (Or.inr h)
    | edge x r y => exact ih (v := v) ha hb

theorem truthful_edges (v : List Uid) (x y : Uid) (rs : List Rel) : Truthful v (rs.map fun r => .edge x r y) := by
  induction rs with
  | nil => trivial
  | cons r rs ih => exact ih

theorem walk_truthful (items : Uid → List (List Rel × Uid)) (fuel : Nat) (x : Uid) (v : List Uid) (es : List Ev) (v' : List Uid)
    (h : walk items fuel x v = some (es, v')) : Truthful (x :: v) es ∧ ∀ z ∈ v', z ∈ nodes es ++ (x :: v) := by
  induction fuel generalizing x v es v' with
  | zero => cases h
  | succ fuel ih =>
    have key : ∀ (its : List (List Rel × Uid)) (v : List Uid) (es : List Ev) (v' : List Uid), walkLoop (walk items fuel) x its v = some (es, v') →
        Truthful v es ∧ ∀ z ∈ v', z ∈ nodes es ++ v := by
      intro its
      induction its with
      | nil =>
        intro v es v' h
        simp only [walkLoop, Option.some.injEq, Prod.mk.injEq] at h
        rw [← h.1, ← h.2]
        exact ⟨trivial, fun z hz => List.mem_append_right _ hz⟩
      | cons it its ihl =>
        obtain ⟨rs, y⟩ := it
        intro v es v' h
        simp only [walkLoop] at h
        split at h
        · rename_i hy
          cases hl : walkLoop (walk items fuel) x its v with
          | none => rw [hl] at h; cases h
          | some r =>
            obtain ⟨e, w⟩ := r
            rw [hl] at h
            simp only [Option.some.injEq, Prod.mk.injEq] at h
            obtain ⟨rfl, rfl⟩ := h
            obtain ⟨i1, i2⟩ := ihl v e w hl
            refine ⟨(truthful_edges v x y rs).append ?_, by simpa using i2⟩
            rw [nodes_map]
            exact ⟨hy, i1⟩
        · cases hr : walk items fuel y v with
          | none => rw [hr] at h; cases h
          | some r =>
            obtain ⟨e1, w1⟩ := r
            rw [hr] at h
            simp only at h
            cases hl : walkLoop (walk items fuel) x its w1 with
            | none => rw [hl] at h; cases h
            | some r =>
              obtain ⟨e, w⟩ := r
              rw [hl] at h
              simp only [Option.some.injEq, Prod.mk.injEq] at h
              obtain ⟨rfl, rfl⟩ := h
              obtain ⟨i1, i2⟩ := ih y v e1 w1 hr
              obtain ⟨j1, j2⟩ := ihl w1 e w hl
              refine ⟨(truthful_edges v x y rs).append ?_, ?_⟩
              · rw [nodes_map]
                exact i1.append (j1.mono i2)
              · intro z hz
                simp only [nodes_append, nodes_map, nodes_node, List.nil_append, List.mem_append, List.mem_cons] at i2 j2 ⊢
                rcases j2 z hz with h | h
                · exact Or.inl (Or.inr (Or.inr h))
                · rcases i2 z h with h | h | h
                  · exact Or.inl (Or.inr (Or.inl h))
                  · exact Or.inl (Or.inl h)
                  · exact Or.inr h
    simp only [walk] at h
    exact key _ _ _ _ h

end Osp.Show
