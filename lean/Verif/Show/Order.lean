import Verif.Show.Props
/-!
# C75: the order of the printed links
-/
namespace Osp.Show
open Osp.Cuds Osp.Search Osp.Utils

/-! ## Specification -/

/-- Specification: the alphabetical order of texts, by code points: a text comes before its continuations, otherwise the first difference decides. -/
def AtOrBefore (s t : Text) : Prop := s <+: t ∨ ∃ p a b s' t', s = p ++ a :: s' ∧ t = p ++ b :: t' ∧ a.toNat < b.toNat

/-- Specification: the order of the links of one object: by the text of the relationship; the links of one relationship by the text of the class of the
other object; if these are equal too, by the text of its name. -/
def InOrder (T : Texts) (O : Onto) (s : Sess) (e f : Uid × Rel × Uid) : Prop :=
  AtOrBefore (T.rel e.2.1) (T.rel f.2.1) ∧
  (e.2.1 = f.2.1 → ∀ c d, (⟨e.2.2, .type, .cls c⟩ : Triple) ∈ s.g → (⟨f.2.2, .type, .cls d⟩ : Triple) ∈ s.g →
    AtOrBefore (T.cls (some c)) (T.cls (some d)) ∧
    (T.cls (some c) = T.cls (some d) → ∀ v w, HasValue O s T.nameAttr v e.2.2 → HasValue O s T.nameAttr w f.2.2 → AtOrBefore (T.val v) (T.val w)))

/-! ## Comparing texts -/

theorem textLe_iff : ∀ {s t : Text}, textLe s t = true ↔ AtOrBefore s t
  | [], t => by simp [textLe, AtOrBefore]
  | a :: s, [] => by simp [textLe, AtOrBefore]
  | a :: s, b :: t => by
    unfold textLe
    by_cases h1 : a.toNat < b.toNat
    · simp only [h1, if_true, true_iff]
      exact Or.inr ⟨[], a, b, s, t, rfl, rfl, h1⟩
    · rw [if_neg h1]
      by_cases h2 : b.toNat < a.toNat
      · simp only [h2, if_true, Bool.false_eq_true, false_iff]
        rintro (⟨u, hu⟩ | ⟨p, c, d, s', t', e1, e2, h⟩)
        · rw [List.cons_append] at hu
          injection hu with hu _
          subst hu; omega
        · cases p with
          | nil =>
            rw [List.nil_append] at e1 e2
            injection e1 with e1 _
            injection e2 with e2 _
            subst e1 e2; omega
          | cons q p =>
            rw [List.cons_append] at e1 e2
            injection e1 with e1 _
            injection e2 with e2 _
            subst e1 e2; omega
      · rw [if_neg h2, textLe_iff]
        have hab : a = b := by
          apply Char.ext; apply UInt32.toNat.inj
          show a.toNat = b.toNat
          omega
        subst hab
        constructor
        · rintro (⟨u, hu⟩ | ⟨p, c, d, s', t', e1, e2, h⟩)
          · exact Or.inl ⟨u, by rw [← hu]; rfl⟩
          · exact Or.inr ⟨a :: p, c, d, s', t', by rw [e1]; rfl, by rw [e2]; rfl, h⟩
        · rintro (⟨u, hu⟩ | ⟨p, c, d, s', t', e1, e2, h⟩)
          · rw [List.cons_append] at hu
            injection hu with _ hu
            exact Or.inl ⟨u, hu⟩
          · cases p with
            | nil =>
              rw [List.nil_append] at e1 e2
              injection e1 with e1 _
              injection e2 with e2 _
              subst e1 e2; omega
            | cons q p =>
              rw [List.cons_append] at e1 e2
              injection e1 with _ e1
              injection e2 with _ e2
              exact Or.inr ⟨p, c, d, s', t', e1, e2, h⟩

theorem textLe_total : ∀ (s t : Text), textLe s t = true ∨ textLe t s = true
  | [], t => Or.inl (by simp [textLe])
  | a :: s, [] => Or.inr (by simp [textLe])
  | a :: s, b :: t => by
    unfold textLe
    by_cases h1 : a.toNat < b.toNat
    · simp [h1]
    · by_cases h2 : b.toNat < a.toNat
      · simp [h2]
      · simp only [h1, h2, if_false]; exact textLe_total s t

theorem textLe_refl (s : Text) : textLe s s = true := (textLe_total s s).elim id id

theorem textLe_trans : ∀ {s t u : Text}, textLe s t = true → textLe t u = true → textLe s u = true
  | [], _, _, _, _ => by simp [textLe]
  | a :: s, [], _, h, _ => by simp [textLe] at h
  | a :: s, b :: t, [], _, h => by simp [textLe] at h
  | a :: s, b :: t, c :: u, h, h' => by
    unfold textLe at h h' ⊢
    by_cases h1 : a.toNat < b.toNat
    · by_cases h2 : b.toNat < c.toNat
      · rw [if_pos (by omega)]
      · rw [if_neg h2] at h'
        by_cases h3 : c.toNat < b.toNat
        · simp [h3] at h'
        · rw [if_pos (by omega)]
    · rw [if_neg h1] at h
      by_cases h2 : b.toNat < a.toNat
      · simp [h2] at h
      · rw [if_neg h2] at h
        by_cases h3 : b.toNat < c.toNat
        · rw [if_pos (by omega)]
        · rw [if_neg h3] at h'
          by_cases h4 : c.toNat < b.toNat
          · simp [h4] at h'
          · rw [if_neg h4] at h'
            rw [if_neg (by omega), if_neg (by omega)]
            exact textLe_trans h h'

theorem textLe_antisymm : ∀ {s t : Text}, textLe s t = true → textLe t s = true → s = t
  | [], [], _, _ => rfl
  | [], b :: t, _, h => by simp [textLe] at h
  | a :: s, [], h, _ => by simp [textLe] at h
  | a :: s, b :: t, h, h' => by
    unfold textLe at h h'
    by_cases h1 : a.toNat < b.toNat
    · simp [h1, show ¬ b.toNat < a.toNat by omega] at h'
    · by_cases h2 : b.toNat < a.toNat
      · simp [h1, h2] at h
      · simp only [h1, h2, if_false] at h h'
        have hab : a = b := by
          apply Char.ext; apply UInt32.toNat.inj
          show a.toNat = b.toNat
          omega
        rw [hab, textLe_antisymm h h']

/-! ## Sorting -/

theorem insertBy_pairwise {α : Type} (le : α → α → Bool) (P : α → Prop) (tot : ∀ a b, P a → P b → le a b = true ∨ le b a = true)
    (tr : ∀ a b c, P a → P b → P c → le a b = true → le b c = true → le a c = true) (x : α) (hx : P x) (l : List α) (hl : ∀ y ∈ l, P y)
    (h : l.Pairwise fun a b => le a b = true) : (insertBy le x l).Pairwise fun a b => le a b = true := by
  induction l with
  | nil => simp [insertBy]
  | cons y l ih =>
    unfold insertBy
    obtain ⟨h1, h2⟩ := List.pairwise_cons.1 h
    split
    · rename_i hxy
      refine List.pairwise_cons.2 ⟨fun z hz => ?_, h⟩
      rcases List.mem_cons.1 hz with rfl | hz
      · exact hxy
      · exact tr x y z hx (hl y (by simp)) (hl z (by simp [hz])) hxy (h1 z hz)
    · rename_i hxy
      refine List.pairwise_cons.2 ⟨fun z hz => ?_, ih (fun z hz => hl z (by simp [hz])) h2⟩
      rw [(insertBy_perm le x l).mem_iff] at hz
      rcases List.mem_cons.1 hz with rfl | hz
      · exact (tot z y hx (hl y (by simp))).resolve_left hxy
      · exact h1 z hz

theorem sortBy_pairwise {α : Type} (le : α → α → Bool) (P : α → Prop) (tot : ∀ a b, P a → P b → le a b = true ∨ le b a = true)
    (tr : ∀ a b c, P a → P b → P c → le a b = true → le b c = true → le a c = true) (l : List α) (hl : ∀ y ∈ l, P y) :
    (sortBy le l).Pairwise fun a b => le a b = true := by
  induction l with
  | nil => simp [sortBy]
  | cons x l ih =>
    unfold sortBy
    refine insertBy_pairwise le P tot tr x (hl x (by simp)) _ (fun y hy => ?_) (ih fun y hy => hl y (by simp [hy]))
    rw [(sortBy_perm le l).mem_iff] at hy
    exact hl y (by simp [hy])

theorem activeRels_sorted (T : Texts) (O : Onto) (s : Sess) (x : Uid) :
    (activeRels T O s x).Pairwise fun a b => textLe (T.rel a) (T.rel b) = true :=
  sortBy_pairwise (fun a b => textLe (T.rel a) (T.rel b)) (fun _ => True) (fun _ _ _ _ => textLe_total _ _) (fun _ _ _ _ _ _ => textLe_trans) _ (fun _ _ => trivial)

section elems
variable {T : Texts} {O : Onto} {s : Sess}

/-- `elemLe` compares the texts of the class, the relationship and the name. -/
theorem elemLe_iff {a b : Uid × Rel} : elemLe T O s a b = true ↔
    textLe (T.cls (oclass s.g a.1)) (T.cls (oclass s.g b.1)) = true ∧ (T.cls (oclass s.g a.1) = T.cls (oclass s.g b.1) →
      textLe (T.rel a.2) (T.rel b.2) = true ∧ (T.rel a.2 = T.rel b.2 → ∀ m n, nameOf T O s a.1 = some m → nameOf T O s b.1 = some n → textLe m n = true)) := by
  unfold elemLe
  simp only
  by_cases h1 : T.cls (oclass s.g a.1) = T.cls (oclass s.g b.1)
  · simp only [h1, ne_eq, not_true_eq_false, if_false, textLe_refl, true_and, forall_true_left]
    by_cases h2 : T.rel a.2 = T.rel b.2
    · simp only [h2, not_true_eq_false, if_false, textLe_refl, true_and, forall_true_left]
      cases nameOf T O s a.1 with
      | none => simp
      | some m => cases nameOf T O s b.1 with
        | none => simp
        | some n => simp
    · simp only [h2, not_false_eq_true, if_true, false_implies, and_true]
  · simp only [h1, ne_eq, not_false_eq_true, if_true, false_implies, and_true]

theorem elemLe_total (a b : Uid × Rel) : elemLe T O s a b = true ∨ elemLe T O s b a = true := by
  rw [elemLe_iff, elemLe_iff]
  by_cases h1 : T.cls (oclass s.g a.1) = T.cls (oclass s.g b.1)
  · by_cases h2 : T.rel a.2 = T.rel b.2
    · simp only [h1, h2, textLe_refl, true_and, forall_true_left]
      cases nameOf T O s a.1 with
      | none => simp
      | some m => cases nameOf T O s b.1 with
        | none => simp
        | some n => simpa using textLe_total m n
    · simp only [h1, h2, Ne.symm h2, textLe_refl, true_and, forall_true_left, false_implies, and_true]
      exact textLe_total _ _
  · simp only [h1, Ne.symm h1, false_implies, and_true]
    exact textLe_total _ _

/-- Two elements that do not differ in having a name only. -/
theorem elemLe_trans {a b c : Uid × Rel} (hab : mixed T O s a b = false)
    (h : elemLe T O s a b = true) (h' : elemLe T O s b c = true) : elemLe T O s a c = true := by
  rw [elemLe_iff] at h h' ⊢
  refine ⟨textLe_trans h.1 h'.1, fun hc => ?_⟩
  have c1 : T.cls (oclass s.g a.1) = T.cls (oclass s.g b.1) := textLe_antisymm h.1 (by rw [hc]; exact h'.1)
  have c2 : T.cls (oclass s.g b.1) = T.cls (oclass s.g c.1) := c1.symm.trans hc
  obtain ⟨h1, h2⟩ := h.2 c1
  obtain ⟨h3, h4⟩ := h'.2 c2
  refine ⟨textLe_trans h1 h3, fun hr => ?_⟩
  have r1 : T.rel a.2 = T.rel b.2 := textLe_antisymm h1 (by rw [hr]; exact h3)
  have r2 : T.rel b.2 = T.rel c.2 := r1.symm.trans hr
  intro m n hm hn
  have : (nameOf T O s b.1).isSome = true := by
    unfold mixed at hab
    rw [decide_eq_true c1, decide_eq_true r1, hm] at hab
    cases hb : (nameOf T O s b.1).isSome with
    | true => rfl
    | false => rw [hb] at hab; cases hab
  obtain ⟨k, hk⟩ := Option.isSome_iff_exists.1 this
  exact textLe_trans (h2 r1 m k hm hk) (h4 r2 k n hk hn)

theorem sortedElems_sorted {x : Uid} {r : Rel} {es : List (Uid × Rel)} (h : sortedElems T O s x r = .ok es) :
    es.Pairwise fun a b => elemLe T O s a b = true := by
  unfold sortedElems at h
  split at h
  · cases h
  · rename_i l hl
    split at h
    · cases h
    · rename_i hm
      cases h
      have hm' : ∀ a ∈ l, ∀ b ∈ l, mixed T O s a b = false := by
        intro a ha b hb
        cases hmix : mixed T O s a b with
        | false => rfl
        | true => exact absurd (List.any_eq_true.2 ⟨a, ha, List.any_eq_true.2 ⟨b, hb, hmix⟩⟩) hm
      exact sortBy_pairwise _ (· ∈ l) (fun a b _ _ => elemLe_total a b) (fun a b c ha hb _ => elemLe_trans (hm' a ha b hb)) l (fun _ h => h)

end elems

/-! ## The order of the links in a traversal -/

theorem filter_source (items : Uid → List (List Rel × Uid)) (l : List Uid) (E : List (Uid × Rel × Uid))
    (h : E.Perm (l.flatMap (linksOf items))) (z : Uid) (hz : z ∉ l) : E.filter (·.1 = z) = [] := by
  rw [List.filter_eq_nil_iff]
  intro e he
  rw [h.mem_iff, List.mem_flatMap] at he
  obtain ⟨y, hy, he⟩ := he
  obtain ⟨it, _, he⟩ := List.mem_flatMap.1 he
  obtain ⟨r, _, rfl⟩ := List.mem_map.1 he
  simp only [decide_eq_true_eq]
  rintro rfl
  exact hz hy

theorem filter_links_same (x : Uid) (its : List Rel) (y : Uid) : (its.map fun r => (x, r, y)).filter (·.1 = x) = its.map fun r => (x, r, y) := by
  rw [List.filter_eq_self]
  intro e he
  obtain ⟨r, _, rfl⟩ := List.mem_map.1 he
  simp

theorem filter_links_other (x z : Uid) (h : z ≠ x) (its : List Rel) (y : Uid) : (its.map fun r => (x, r, y)).filter (·.1 = z) = [] := by
  rw [List.filter_eq_nil_iff]
  intro e he
  obtain ⟨r, _, rfl⟩ := List.mem_map.1 he
  simp [h.symm]

/-- The links of every object appear in the order of its items. -/
theorem walk_order (items : Uid → List (List Rel × Uid)) (fuel : Nat) (x : Uid) (v : List Uid) (es : List Ev) (v' : List Uid)
    (h : walk items fuel x v = some (es, v')) (hn : (x :: nodes es).Nodup) :
    ∀ z ∈ x :: nodes es, (edges es).filter (·.1 = z) = linksOf items z := by
  induction fuel generalizing x v es v' with
  | zero => cases h
  | succ fuel ih =>
    have key : ∀ (its : List (List Rel × Uid)) (v : List Uid) (es : List Ev) (v' : List Uid), walkLoop (walk items fuel) x its v = some (es, v') →
        (x :: nodes es).Nodup →
        (edges es).filter (·.1 = x) = (its.flatMap fun it => it.1.map fun r => (x, r, it.2)) ∧
        (∀ z ∈ nodes es, (edges es).filter (·.1 = z) = linksOf items z) ∧
        ∀ z, z ∉ x :: nodes es → (edges es).filter (·.1 = z) = [] := by
      intro its
      induction its with
      | nil => intro v es v' h _; simp only [walkLoop, Option.some.injEq, Prod.mk.injEq] at h; rw [← h.1]; simp [edges, nodes]
      | cons it its ihl =>
        obtain ⟨rs, y⟩ := it
        intro v es v' h hn
        simp only [walkLoop] at h
        split at h
        · cases hl : walkLoop (walk items fuel) x its v with
          | none => rw [hl] at h; cases h
          | some r =>
            obtain ⟨e, w⟩ := r
            rw [hl] at h
            simp only [Option.some.injEq, Prod.mk.injEq] at h
            obtain ⟨rfl, _⟩ := h
            simp only [edges_append, edges_map, edges_seen, nodes_append, nodes_map, nodes_seen, List.nil_append, List.flatMap_cons,
              List.filter_append] at hn ⊢
            obtain ⟨k1, k2, k3⟩ := ihl v e w hl hn
            refine ⟨by rw [filter_links_same, k1], fun z hz => ?_, fun z hz => ?_⟩
            · rw [filter_links_other x z (by rintro rfl; exact (List.nodup_cons.1 hn).1 hz), k2 z hz, List.nil_append]
            · rw [filter_links_other x z (by rintro rfl; exact hz (by simp)), k3 z hz, List.nil_append]
        · cases hr : walk items fuel y v with
          | none => rw [hr] at h; cases h
          | some r =>
            obtain ⟨e1, w1⟩ := r
            rw [hr] at h
            simp only at h
            cases hl : walkLoop (walk items fuel) x its w1 with
            | none => rw [hl] at h; cases h
            | some r =>
              obtain ⟨e, w⟩ := r
              rw [hl] at h
              simp only [Option.some.injEq, Prod.mk.injEq] at h
              obtain ⟨rfl, _⟩ := h
              simp only [edges_append, edges_map, edges_node, nodes_append, nodes_map, nodes_node, List.nil_append, List.flatMap_cons,
                List.filter_append] at hn ⊢
              rw [← List.cons_append] at hn ⊢
              obtain ⟨hx, hn'⟩ := List.nodup_cons.1 hn
              obtain ⟨n1, n2, n3⟩ := List.nodup_append.1 hn'
              have hx1 : x ∉ y :: nodes e1 := fun h => hx (List.mem_append_left _ h)
              have hx2 : x ∉ nodes e := fun h => hx (List.mem_append_right _ h)
              have j1 := ih y v e1 w1 hr n1
              have j2 : ∀ z, z ∉ y :: nodes e1 → (edges e1).filter (·.1 = z) = [] :=
                fun z hz => filter_source items _ _ (walk_edges items fuel y v e1 w1 hr) z hz
              obtain ⟨k1, k2, k3⟩ := ihl w1 e w hl (List.nodup_cons.2 ⟨hx2, n2⟩)
              refine ⟨by rw [filter_links_same, k1, j2 x hx1, List.nil_append], fun z hz => ?_, fun z hz => ?_⟩
              · rw [filter_links_other x z (by rintro rfl; exact hx hz), List.nil_append]
                rcases List.mem_append.1 hz with hz1 | hz2
                · rw [j1 z hz1, k3 z, List.append_nil]
                  intro hz'
                  rcases List.mem_cons.1 hz' with rfl | hz'
                  · exact hx hz
                  · exact n3 z hz1 z hz' rfl
                · rw [j2 z (fun hz1 => n3 z hz1 z hz2 rfl), k2 z hz2, List.nil_append]
              · rw [filter_links_other x z (by rintro rfl; exact hz (by simp)), j2 z (fun h => hz (List.mem_cons_of_mem _ (List.mem_append_left _ h))),
                  k3 z (fun h => hz ?_)]
                · rfl
                · rcases List.mem_cons.1 h with rfl | h
                  · simp
                  · exact List.mem_cons_of_mem _ (List.mem_append_right _ h)
    simp only [walk] at h
    obtain ⟨k1, k2, _⟩ := key _ _ _ _ h hn
    intro z hz
    rcases List.mem_cons.1 hz with rfl | hz
    · exact k1
    · exact k2 z hz

/-! ## The theorem -/

theorem hasValue_name {T : Texts} {O : Onto} (hW : O.WF) {s : Sess} (hs : Reachable O s) {x : Uid} {v : Val} (h : HasValue O s T.nameAttr v x) :
    nameOf T O s x = some (T.val v) := by
  have h1 := (attrCrit_iff hW hs).2 h
  unfold attrCrit at h1
  unfold nameOf
  cases hg : getAttr O s x T.nameAttr with
  | error e => rw [hg] at h1; cases h1
  | ok w => rw [hg] at h1; simp only [decide_eq_true_eq] at h1; rw [← h1]

theorem linksOf_rels {T : Texts} {O : Onto} {s : Sess} (x : Uid) :
    linksOf (ppItems T O s) x = (activeRels T O s x).flatMap fun r => match sortedElems T O s x r with
      | .ok es => (es.filter (·.2 = r)).map fun e => (x, r, e.1)
      | .error _ => [] := by
  unfold linksOf ppItems relItems
  rw [List.flatMap_assoc]
  refine congrArg (fun f => (activeRels T O s x).flatMap f) (funext fun r => ?_)
  cases sortedElems T O s x r with
  | error e => rfl
  | ok es =>
    simp only [elemItems, List.flatMap_map, List.map_cons, List.map_nil]
    induction es.filter (fun x => decide (x.2 = r)) with
    | nil => rfl
    | cons e l ih => rw [List.flatMap_cons, ih]; rfl

theorem linksOf_sorted {T : Texts} {O : Onto} (hW : O.WF) {s : Sess} (hs : Reachable O s) (x : Uid) :
    (linksOf (ppItems T O s) x).Pairwise (InOrder T O s) := by
  obtain ⟨A, hA, _⟩ := reachable_view hW hs
  have hn : (activeRels T O s x).Nodup := (sortBy_perm _ _).nodup_iff.2 ((nodup_neighborRels _ _).filter _)
  have hs' := activeRels_sorted T O s x
  rw [linksOf_rels]
  generalize activeRels T O s x = rs at hn hs'
  induction rs with
  | nil => simp
  | cons r rs ih =>
    obtain ⟨n1, n2⟩ := List.nodup_cons.1 hn
    obtain ⟨s1, s2⟩ := List.pairwise_cons.1 hs'
    rw [List.flatMap_cons, List.pairwise_append]
    refine ⟨?_, ih n2 s2, ?_⟩
    · cases he : sortedElems T O s x r with
      | error e => simp
      | ok es =>
        simp only
        rw [List.pairwise_map, List.pairwise_filter]
        refine (sortedElems_sorted he).imp fun {a b} hab ha hb => ?_
        have ha' : a.2 = r := by simpa using ha
        have hb' : b.2 = r := by simpa using hb
        refine ⟨textLe_iff.1 (textLe_refl _), fun _ c d hc hd => ?_⟩
        rw [elemLe_iff, oclass_ref hA, oclass_ref hA, (hA.type _ _).1 hc, (hA.type _ _).1 hd, ha', hb'] at hab
        refine ⟨textLe_iff.1 hab.1, fun hcd v w hv hw => ?_⟩
        exact textLe_iff.1 ((hab.2 hcd).2 rfl _ _ (hasValue_name hW hs hv) (hasValue_name hW hs hw))
    · intro e he f hf
      obtain ⟨r', hr', hf⟩ := List.mem_flatMap.1 hf
      cases h1 : sortedElems T O s x r with
      | error _ => rw [h1] at he; cases he
      | ok es =>
        cases h2 : sortedElems T O s x r' with
        | error _ => rw [h2] at hf; cases hf
        | ok es' =>
          rw [h1] at he
          rw [h2] at hf
          obtain ⟨a, _, rfl⟩ := List.mem_map.1 he
          obtain ⟨b, _, rfl⟩ := List.mem_map.1 hf
          exact ⟨textLe_iff.1 (s1 r' hr'), fun (h : r = r') => absurd (by rw [h]; exact hr') n1⟩

/-- C75: the links of every object are printed in a fixed order, whatever the order of the sets in the session: by relationship, then by the class of the
other object, then by its name. -/
theorem pretty_print_sorted {T : Texts} {O : Onto} (hW : O.WF) (hrefl : ∀ r, O.subRel r r = true) {s : Sess} (hs : Reachable O s) (root : Uid)
    (hroot : root ∈ s.reg) (fuel : Nat) (hf : s.reg.length + 1 ≤ fuel) (ls : List Line) (h : ppLines T O s fuel root = some (.ok ls)) (x : Uid) :
    ((shownLinks ls).filter (·.1 = x)).Pairwise (InOrder T O s) := by
  have hc : ∀ x, Reaches O s (some O.active) root x → ¬ Clash T O s x := by
    intro x hx hcl
    rw [pretty_print_fails hW hrefl hs root hroot fuel hf x hx hcl] at h
    cases h
  have hgood : ∀ x, Reaches O s (some O.active) root x → Good T O s x := fun x hx => (good_iff hW hs x).2 (hc x hx)
  obtain ⟨es, V, hw, h1, h2, h3, h4⟩ := walk_exact hW hs (some O.active) (ppItems T O s) root
    (fun x hx => by simpa using linksOf_ppItems hW hrefl hs x (hgood x hx)) (fun x _ it hit => (ppItems_linked hW hs x it hit).2) hroot fuel hf
  obtain ⟨ag, _⟩ := ppSub_agree T O s (Reaches O s (some O.active) root) (fun x hx it hit => hx.tail (ppItems_linked hW hs x it hit).1) fuel root .refl
    "\n  ".toList []
  unfold ppLines at h
  generalize ppSub T O s fuel root "\n  ".toList [] = R at ag h
  cases R with
  | none => cases h
  | some R =>
    cases R with
    | error e => cases h
    | ok p =>
      obtain ⟨ls', v⟩ := p
      simp only [Option.map_some, Option.some.injEq, Except.ok.injEq] at h
      subst h
      obtain ⟨ag1, _⟩ := ag
      rw [hw] at ag1
      simp only [Option.some.injEq, Prod.mk.injEq] at ag1
      obtain ⟨rfl, rfl⟩ := ag1
      rw [shownLinks_eq]
      by_cases hx : x ∈ root :: nodes (ls'.filterMap Line.ev)
      · rw [walk_order _ _ _ _ _ _ hw h1 x hx]
        exact linksOf_sorted hW hs x
      · rw [filter_source _ _ _ (walk_edges _ _ _ _ _ _ hw) x hx]
        exact List.Pairwise.nil

end Osp.Show
