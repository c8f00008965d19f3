import Verif.Show.Walk
import Verif.Cuds.Once
/-!
# `_pp_subelements` is a traversal
-/
namespace Osp.Show
open Osp.Cuds Osp.Search

/-- What a line shows. -/
def Line.ev (l : Line) : Option Ev := match l.what with
  | .obj x r y => some (.edge x r y)
  | .already y => some (.seen y)
  | .details y => some (.node y)
  | _ => none

/-- The elements of a relationship that are shown. -/
def elemItems (r : Rel) (es : List (Uid × Rel)) : List (List Rel × Uid) := (es.filter (·.2 = r)).map fun e => ([r], e.1)

/-- The links of an object in the order in which they are shown. -/
def relItems (T : Texts) (O : Onto) (s : Sess) (x : Uid) (rs : List Rel) : List (List Rel × Uid) :=
  rs.flatMap fun r => match sortedElems T O s x r with
    | .ok es => elemItems r es
    | .error _ => []

/-- The links of an object in the order in which they are shown. -/
def ppItems (T : Texts) (O : Onto) (s : Sess) (x : Uid) : List (List Rel × Uid) := relItems T O s x (activeRels T O s x)

/-- The elements of all relationships of the object can be sorted. -/
def Good (T : Texts) (O : Onto) (s : Sess) (x : Uid) : Prop := ∀ r ∈ activeRels T O s x, ∃ es, sortedElems T O s x r = .ok es

/-- Sequencing of traversals. -/
def wseq (a : Option (List Ev × List Uid)) (k : List Uid → Option (List Ev × List Uid)) : Option (List Ev × List Uid) :=
  match a with
  | none => none
  | some (e, v) => match k v with
    | none => none
    | some (e', v') => some (e ++ e', v')

theorem wseq_assoc (a : Option (List Ev × List Uid)) (k l : List Uid → Option (List Ev × List Uid)) :
    wseq (wseq a k) l = wseq a (fun v => wseq (k v) l) := by
  unfold wseq
  cases a with
  | none => rfl
  | some p =>
    obtain ⟨e, v⟩ := p
    simp only
    cases k v with
    | none => rfl
    | some q =>
      obtain ⟨e', v'⟩ := q
      simp only
      cases l v' with
      | none => rfl
      | some q => simp

theorem walkLoop_cons (rec : Uid → List Uid → Option (List Ev × List Uid)) (x y : Uid) (rs : List Rel) (its : List (List Rel × Uid)) (v : List Uid) :
    walkLoop rec x ((rs, y) :: its) v =
      if y ∈ v then wseq (some (rs.map (fun r => .edge x r y) ++ [.seen y], v)) (walkLoop rec x its)
      else wseq (wseq (some (rs.map (fun r => .edge x r y) ++ [.node y], v)) (rec y)) (walkLoop rec x its) := by
  simp only [walkLoop, wseq]
  split
  · cases walkLoop rec x its v with
    | none => rfl
    | some p => simp
  · cases rec y v with
    | none => rfl
    | some p =>
      obtain ⟨e, v'⟩ := p
      simp only
      cases walkLoop rec x its v' with
      | none => rfl
      | some p => simp

theorem walkLoop_append (rec : Uid → List Uid → Option (List Ev × List Uid)) (x : Uid) (a b : List (List Rel × Uid)) (v : List Uid) :
    walkLoop rec x (a ++ b) v = wseq (walkLoop rec x a v) (walkLoop rec x b) := by
  induction a generalizing v with
  | nil =>
    simp only [List.nil_append, walkLoop, wseq]
    cases walkLoop rec x b v with
    | none => rfl
    | some p => simp
  | cons it a ih =>
    obtain ⟨rs, y⟩ := it
    have : walkLoop rec x (a ++ b) = fun v => wseq (walkLoop rec x a v) (walkLoop rec x b) := funext ih
    rw [List.cons_append, walkLoop_cons, walkLoop_cons, this]
    split <;> simp only [wseq_assoc]

section agree
variable (T : Texts) (O : Onto) (s : Sess) (Q : Uid → Prop)

/-- The result shows what the traversal shows, or ends with the exception of an object in `Q` whose elements cannot be sorted. -/
def Agree (R : Res) (W : Option (List Ev × List Uid)) : Prop :=
  match R with
  | none => W = none
  | some (.ok (ls, v)) => W = some (ls.filterMap Line.ev, v) ∧ ∀ z ∈ nodes (ls.filterMap Line.ev), Good T O s z
  | some (.error e) => ∃ x, Q x ∧ ∃ r ∈ activeRels T O s x, sortedElems T O s x r = .error e

theorem Agree.seq {R : Res} {W : Option (List Ev × List Uid)} {k : List Uid → Res} {K : List Uid → Option (List Ev × List Uid)}
    (h : Agree T O s Q R W) (hk : ∀ v, Agree T O s Q (k v) (K v)) : Agree T O s Q (R.seq k) (wseq W K) := by
  cases R with
  | none => have h' : W = none := h; subst h'; exact rfl
  | some R =>
    cases R with
    | error e => exact h
    | ok p =>
      obtain ⟨ls, v⟩ := p
      obtain ⟨h1, h2⟩ := h
      subst h1
      have hk' := hk v
      unfold Res.seq wseq
      simp only
      cases hkv : k v with
      | none => rw [hkv] at hk'; have h' : K v = none := hk'; rw [h']; exact rfl
      | some R =>
        rw [hkv] at hk'
        cases R with
        | error e => exact hk'
        | ok p =>
          obtain ⟨ls', v'⟩ := p
          obtain ⟨h3, h4⟩ := hk'
          rw [h3]
          refine ⟨by simp, fun z hz => ?_⟩
          rw [List.filterMap_append, nodes_append] at hz
          rcases List.mem_append.1 hz with hz | hz
          · exact h2 z hz
          · exact h4 z hz

theorem fresh_agree (rec : Text → List Uid → Res) (W : Uid → List Uid → Option (List Ev × List Uid)) (x y : Uid) (r : Rel) (ind ind' : Text)
    (v : List Uid) (hrec : ∀ ind v, Agree T O s Q (rec ind v) (W y v) ∧ ∀ p, rec ind v = some (.ok p) → Good T O s y) :
    Agree T O s Q (Res.seq (some (.ok ([⟨ind, .obj x r y⟩, ⟨ind', .uuid y⟩] ++ [⟨ind', .details y⟩], v))) (rec ind'))
      (wseq (some ([r].map (fun r => .edge x r y) ++ [.node y], v)) (W y)) := by
  obtain ⟨h1, h2⟩ := hrec ind' v
  unfold Res.seq wseq
  simp only
  cases hR : rec ind' v with
  | none => rw [hR] at h1; have h1' : W y v = none := h1; simp only [h1']; exact rfl
  | some R' =>
    rw [hR] at h1
    cases R' with
    | error e => exact h1
    | ok p =>
      obtain ⟨ls, v'⟩ := p
      obtain ⟨h3, h4⟩ := h1
      simp only [h3]
      refine ⟨rfl, fun z hz => ?_⟩
      simp only [List.cons_append, List.nil_append, List.filterMap_cons, Line.ev] at hz
      rcases List.mem_cons.1 hz with rfl | hz
      · exact h2 _ hR
      · exact h4 z hz

theorem ppElems_agree (rec : Uid → Text → List Uid → Res) (W : Uid → List Uid → Option (List Ev × List Uid)) (x : Uid) (r : Rel) (ind : Text)
    (es : List (Uid × Rel)) (v : List Uid)
    (hrec : ∀ y, (y, r) ∈ es → ∀ ind v, Agree T O s Q (rec y ind v) (W y v) ∧ ∀ p, rec y ind v = some (.ok p) → Good T O s y) :
    Agree T O s Q (ppElems rec x r ind es v) (walkLoop W x (elemItems r es) v) := by
  induction es generalizing v with
  | nil => exact ⟨rfl, by simp [nodes]⟩
  | cons e es ih =>
    obtain ⟨y, r'⟩ := e
    have ih' := fun v => ih v (fun y hy => hrec y (List.mem_cons_of_mem _ hy))
    unfold ppElems
    by_cases hr : r' = r
    · subst hr
      have hit : elemItems r' ((y, r') :: es) = ([r'], y) :: elemItems r' es := by simp [elemItems]
      rw [hit, walkLoop_cons]
      simp only [ne_eq, not_true_eq_false, if_false]
      split
      · refine Agree.seq T O s Q ?_ ih'
        exact ⟨rfl, by simp [nodes, Line.ev]⟩
      · refine Agree.seq T O s Q ?_ ih'
        exact fresh_agree T O s Q (fun ind v => rec y ind v) W x y r' ind _ v (fun ind v => hrec y (by simp) ind v)
    · have hit : elemItems r ((y, r') :: es) = elemItems r es := by simp [elemItems, hr]
      rw [hit, if_pos hr]
      exact ih' v

theorem ppRels_agree (rec : Uid → Text → List Uid → Res) (W : Uid → List Uid → Option (List Ev × List Uid)) (x : Uid) (lvl : Text)
    (rs : List Rel) (v : List Uid) (hx : Q x) (hrs : ∀ r ∈ rs, r ∈ activeRels T O s x)
    (hrec : ∀ it ∈ ppItems T O s x, ∀ ind v, Agree T O s Q (rec it.2 ind v) (W it.2 v) ∧ ∀ p, rec it.2 ind v = some (.ok p) → Good T O s it.2) :
    Agree T O s Q (ppRels T O s rec x lvl rs v) (walkLoop W x (relItems T O s x rs) v) ∧
    ∀ p, ppRels T O s rec x lvl rs v = some (.ok p) → ∀ r ∈ rs, ∃ es, sortedElems T O s x r = .ok es := by
  induction rs generalizing v with
  | nil => exact ⟨⟨rfl, by simp [nodes]⟩, by simp⟩
  | cons r rs ih =>
    have ih' := fun v => ih v (fun r hr => hrs r (List.mem_cons_of_mem _ hr))
    unfold ppRels
    simp only [relItems, List.flatMap_cons]
    cases he : sortedElems T O s x r with
    | error e => exact ⟨⟨x, hx, r, hrs r (by simp), he⟩, (by intro p h; cases h)⟩
    | ok es =>
      simp only
      refine ⟨?_, ?_⟩
      · rw [walkLoop_append]
        refine Agree.seq T O s Q ?_ (fun v => (ih' v).1)
        have h1 := fun v => ppElems_agree T O s Q rec W x r (lvl ++ if rs.isEmpty = true then "   ".toList else " | ".toList) es v
          (fun y hy ind v => hrec ([r], y) (by
            unfold ppItems relItems
            rw [List.mem_flatMap]
            refine ⟨r, hrs r (by simp), ?_⟩
            rw [he]
            exact List.mem_map.2 ⟨(y, r), List.mem_filter.2 ⟨hy, by simp⟩, rfl⟩) ind v)
        have h2 := Agree.seq T O s Q (R := some (.ok ([⟨lvl, .rel x r⟩], v))) (W := some ([], v)) ⟨rfl, by simp [nodes, Line.ev]⟩ h1
        have h3 : wseq (some ([], v)) (fun v => walkLoop W x (elemItems r es) v) = walkLoop W x (elemItems r es) v := by
          simp only [wseq]
          cases walkLoop W x (elemItems r es) v with
          | none => rfl
          | some p => simp
        rw [h3] at h2
        exact h2
      · intro p hp r0 hr0
        rcases List.mem_cons.1 hr0 with rfl | hr0
        · exact ⟨es, he⟩
        · unfold Res.seq at hp
          split at hp
          · cases hp
          · cases hp
          · rename_i ls v' _
            cases hk : ppRels T O s rec x lvl rs v' with
            | none => rw [hk] at hp; cases hp
            | some R =>
              rw [hk] at hp
              cases R with
              | error e => cases hp
              | ok q => exact (ih' v').2 q hk r0 hr0

theorem ppSub_agree (hQ : ∀ x, Q x → ∀ it ∈ ppItems T O s x, Q it.2) (fuel : Nat) (x : Uid) (hx : Q x) (lvl : Text) (v : List Uid) :
    Agree T O s Q (ppSub T O s fuel x lvl v) (walk (ppItems T O s) fuel x v) ∧ ∀ p, ppSub T O s fuel x lvl v = some (.ok p) → Good T O s x := by
  induction fuel generalizing x lvl v with
  | zero => exact ⟨rfl, by intro p h; cases h⟩
  | succ fuel ih =>
    exact ppRels_agree T O s Q (ppSub T O s fuel) (walk (ppItems T O s) fuel) x lvl (activeRels T O s x) (x :: v) hx (fun _ h => h)
      (fun it hit ind v => ih it.2 (hQ x hx it hit) ind v)

end agree

end Osp.Show
