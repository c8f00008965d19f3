import Verif.Onto.Props
/-!
# Helper lemmas for inverse relationships
-/
namespace Osp.Onto

variable {I : Type} [DecidableEq I]

theorem mem_addSet {α : Type} [DecidableEq α] (l : List α) (x y : α) : y ∈ addSet l x ↔ y ∈ l ∨ y = x := by
  unfold addSet
  split
  · constructor
    · exact Or.inl
    · rintro (h | rfl) <;> assumption
  · simp

omit [DecidableEq I] in
theorem partner_symm {g : RG I} {x y : Node I} (h : g.Partner x y) : g.Partner y x := ⟨h.1.symm, h.2.2, h.2.1⟩

theorem lookup_some {g : RG I} {r i : Node I} (hr : r.isBNode = false) (h : g.lookup r = some i) : g.Partner r i := by
  unfold RG.lookup at h
  split at h
  · rename_i t ht
    cases h
    have := List.mem_filter.1 (List.mem_of_mem_head? ht)
    simp only [Bool.and_eq_true, decide_eq_true_eq, Bool.not_eq_true'] at this
    obtain ⟨h1, h2, h3⟩ := this
    exact ⟨Or.inl (by rw [← h2]; exact h1), hr, h3⟩
  · split at h
    · rename_i t ht
      cases h
      have := List.mem_filter.1 (List.mem_of_mem_head? ht)
      simp only [Bool.and_eq_true, decide_eq_true_eq, Bool.not_eq_true'] at this
      obtain ⟨h1, h2, h3⟩ := this
      exact ⟨Or.inr (by rw [← h2]; exact h1), hr, h3⟩
    · cases h

theorem lookup_none {g : RG I} {r : Node I} (h : g.lookup r = none) : ∀ y, ¬ g.Partner r y := by
  unfold RG.lookup at h
  intro y hy
  split at h
  · cases h
  · rename_i h1
    split at h
    · cases h
    · rename_i h2
      rw [List.head?_eq_none_iff] at h1 h2
      rcases hy.1 with hm | hm
      · have : (r, y) ∈ g.inv.filter (fun t => t.1 = r && !t.2.isBNode) := List.mem_filter.2 ⟨hm, by simp [hy.2.2]⟩
        rw [h1] at this
        cases this
      · have : (y, r) ∈ g.inv.filter (fun t => t.2 = r && !t.1.isBNode) := List.mem_filter.2 ⟨hm, by simp [hy.2.2]⟩
        rw [h2] at this
        cases this

/-- How many of the listed relationships still have no inverse. -/
def openCount (U : List (Node I)) (g : RG I) : Nat := (U.filter (fun x => decide (x.isBNode = false) && (g.lookup x).isNone)).length

/-- Every known relationship is listed or has an inverse. -/
def Covers (U : List (Node I)) (g : RG I) : Prop := ∀ x, g.og.known x = true → x ∈ U ∨ ∃ y, g.Partner x y

theorem lookup_isNone_iff {g : RG I} {x : Node I} (hx : x.isBNode = false) : (g.lookup x).isNone = true ↔ ∀ y, ¬ g.Partner x y := by
  constructor
  · intro h
    exact lookup_none (by simpa using h)
  · intro h
    cases e : g.lookup x with
    | none => rfl
    | some i => exact absurd (lookup_some hx e) (h i)

theorem filter_length_mono {α : Type} (p q : α → Bool) : ∀ l : List α, (∀ x ∈ l, q x = true → p x = true) → (l.filter q).length ≤ (l.filter p).length := by
  intro l
  induction l with
  | nil => simp
  | cons a l ih =>
    intro h
    have := ih (fun x hx => h x (List.mem_cons_of_mem _ hx))
    by_cases hq : q a = true
    · simp [hq, h a List.mem_cons_self hq, this]
    · by_cases hp : p a = true
      · simp only [List.filter_cons, hq, hp, if_true, List.length_cons]; simp; omega
      · simp [hq, hp, this]

theorem filter_length_lt {α : Type} (p q : α → Bool) : ∀ l : List α, (∀ x ∈ l, q x = true → p x = true) → ∀ a ∈ l, p a = true → q a = false →
    (l.filter q).length < (l.filter p).length := by
  intro l
  induction l with
  | nil => intro _ a h; cases h
  | cons b l ih =>
    intro h a ha hp hq
    have hm := filter_length_mono p q l (fun x hx => h x (List.mem_cons_of_mem _ hx))
    rcases List.mem_cons.1 ha with rfl | ha
    · simp [hp, hq]; omega
    · have := ih (fun x hx => h x (List.mem_cons_of_mem _ hx)) a ha hp hq
      by_cases hqb : q b = true
      · simp [hqb, h b List.mem_cons_self hqb, this]
      · by_cases hpb : p b = true
        · simp [hqb, hpb]; omega
        · simp [hqb, hpb, this]

theorem openCount_mono {U : List (Node I)} {g g' : RG I} (h : ∀ x y, g.Partner x y → g'.Partner x y) : openCount U g' ≤ openCount U g := by
  apply filter_length_mono
  intro x _
  simp only [Bool.and_eq_true, decide_eq_true_eq]
  rintro ⟨h1, h2⟩
  refine ⟨h1, (lookup_isNone_iff h1).2 ?_⟩
  intro y hy
  exact (lookup_isNone_iff h1).1 h2 y (h x y hy)

theorem openCount_lt {U : List (Node I)} {g g' : RG I} (h : ∀ x y, g.Partner x y → g'.Partner x y) {r : Node I} (hr : r ∈ U) (hi : r.isBNode = false)
    (hn : ∀ y, ¬ g.Partner r y) {o : Node I} (ho : g'.Partner r o) : openCount U g' < openCount U g := by
  apply filter_length_lt _ _ _ _ r hr
  · simp only [Bool.and_eq_true, decide_eq_true_eq]
    exact ⟨hi, (lookup_isNone_iff hi).2 hn⟩
  · rw [Bool.eq_false_iff]
    simp only [ne_eq, Bool.and_eq_true, decide_eq_true_eq, not_and]
    intro _ h2
    exact (lookup_isNone_iff hi).1 h2 o ho
  · intro x _
    simp only [Bool.and_eq_true, decide_eq_true_eq]
    rintro ⟨h1, h2⟩
    refine ⟨h1, (lookup_isNone_iff h1).2 ?_⟩
    intro y hy
    exact (lookup_isNone_iff h1).1 h2 y (h x y hy)

omit [DecidableEq I] in
theorem extends_refl (g : RG I) : g.Extends g :=
  ⟨fun _ _ h => h, fun _ h => h, fun _ h => h, fun _ h => h, fun _ h => h, fun _ h => Or.inl h, fun _ h => Or.inl h, fun _ h => Or.inl h, rfl, rfl, rfl⟩

omit [DecidableEq I] in
theorem mentions_mono {g g' : RG I} (h : g.Extends g') {n : Node I} (hn : g.Mentions n) : g'.Mentions n := by
  rcases hn with hn | hn
  · exact Or.inl (h.known n hn)
  · right
    unfold OG.nodes at *
    simp only [List.mem_append, List.mem_map] at *
    rcases hn with (⟨t, a, b⟩ | ⟨t, a, b⟩) | a
    · exact Or.inl (Or.inl ⟨t, h.sub t a, b⟩)
    · exact Or.inl (Or.inr ⟨t, h.sub t a, b⟩)
    · exact Or.inr (h.typed n a)

omit [DecidableEq I] in
theorem extends_trans {a b c : RG I} (h : a.Extends b) (k : b.Extends c) : a.Extends c := by
  refine ⟨fun x y p => k.partner x y (h.partner x y p), fun x p => k.known x (h.known x p), fun t p => k.sub t (h.sub t p),
    fun t p => k.inv t (h.inv t p), fun t p => k.typed t (h.typed t p), ?_, ?_, ?_, k.top.trans h.top, k.bottom.trans h.bottom, k.blacklist.trans h.blacklist⟩
  · intro t ht
    rcases k.newSub t ht with p | p
    · exact h.newSub t p
    · exact Or.inr fun q => p (mentions_mono h q)
  · intro t ht
    rcases k.newInv t ht with p | ⟨p, q⟩
    · exact h.newInv t p
    · exact Or.inr ⟨fun y hy => p y (h.partner _ y hy), fun m => q (mentions_mono h m)⟩
  · intro t ht
    rcases k.newTyped t ht with p | p
    · exact h.newTyped t p
    · exact Or.inr fun q => p (mentions_mono h q)

/-- Add one sub-relationship triple. -/
def RG.addSub (g : RG I) (o si : Node I) : RG I := { g with og := { g.og with sub := addSet g.og.sub (o, si) } }

theorem addSub_extends {g0 g : RG I} (h : g0.Extends g) {o si : Node I} (ho : ¬ g0.Mentions o) : g0.Extends (g.addSub o si) := by
  refine ⟨h.partner, h.known, ?_, h.inv, h.typed, ?_, h.newInv, h.newTyped, h.top, h.bottom, h.blacklist⟩
  · intro t ht
    exact (mem_addSet _ _ _).2 (Or.inl (h.sub t ht))
  · intro t ht
    rcases (mem_addSet _ _ _).1 ht with p | p
    · exact h.newSub t p
    · subst p
      exact Or.inr ho

theorem addSub_wf {mk : (Node I) → (Node I)} {g : RG I} (h : g.WF mk) {o si : Node I} (ho : g.og.known o = true) (hs : g.og.known si = true) :
    (g.addSub o si).WF mk := by
  refine ⟨h.one, h.fresh, ?_, h.iri, h.known⟩
  intro x hx
  apply h.ment
  rcases hx with hx | hx
  · exact Or.inl hx
  · unfold OG.nodes at hx
    simp only [List.mem_append, List.mem_map, RG.addSub, mem_addSet] at hx
    rcases hx with (⟨t, a | a, b⟩ | ⟨t, a | a, b⟩) | a
    · exact Or.inr (by unfold OG.nodes; simp only [List.mem_append, List.mem_map]; exact Or.inl (Or.inl ⟨t, a, b⟩))
    · subst a; subst b; exact Or.inl ho
    · exact Or.inr (by unfold OG.nodes; simp only [List.mem_append, List.mem_map]; exact Or.inl (Or.inr ⟨t, a, b⟩))
    · subst a; subst b; exact Or.inl hs
    · exact Or.inr (by unfold OG.nodes; simp only [List.mem_append]; exact Or.inr a)

theorem addNew_partner {g : RG I} {r o : Node I} (hr : r.isBNode = false) (ho : o.isBNode = false) (x y : Node I) :
    (g.addNew r o).Partner x y ↔ g.Partner x y ∨ (x = r ∧ y = o) ∨ (x = o ∧ y = r) := by
  unfold RG.Partner RG.addNew
  simp only [mem_addSet, Prod.mk.injEq]
  constructor
  · rintro ⟨(h | ⟨rfl, rfl⟩) | (h | ⟨rfl, rfl⟩), b, c⟩
    · exact Or.inl ⟨Or.inl h, b, c⟩
    · exact Or.inr (Or.inl ⟨rfl, rfl⟩)
    · exact Or.inl ⟨Or.inr h, b, c⟩
    · exact Or.inr (Or.inr ⟨rfl, rfl⟩)
  · rintro (⟨h | h, b, c⟩ | ⟨rfl, rfl⟩ | ⟨rfl, rfl⟩)
    · exact ⟨Or.inl (Or.inl h), b, c⟩
    · exact ⟨Or.inr (Or.inl h), b, c⟩
    · exact ⟨Or.inl (Or.inr ⟨rfl, rfl⟩), hr, ho⟩
    · exact ⟨Or.inr (Or.inr ⟨rfl, rfl⟩), ho, hr⟩

theorem addNew_spec {mk : (Node I) → (Node I)} (hinj : ∀ x y, mk x = mk y → x = y) (hmk : ∀ x, (mk x).isBNode = false) {g : RG I} (h : g.WF mk) {r : Node I}
    (hk : g.og.known r = true) (hn : ∀ y, ¬ g.Partner r y) :
    ¬ g.Mentions (mk r) ∧ (g.addNew r (mk r)).WF mk ∧ g.Extends (g.addNew r (mk r)) ∧ (g.addNew r (mk r)).Partner r (mk r) ∧
      (g.addNew r (mk r)).og.known (mk r) = true := by
  have hr := h.iri r hk
  have hno : ¬ g.Mentions (mk r) := fun m => hn _ (partner_symm (h.ment r m))
  have hP := fun x y => addNew_partner (g := g) hr (hmk r) x y
  have hne : ∀ x, mk x ≠ r := by
    intro x e
    have := h.ment x (Or.inl (by rw [e]; exact hk))
    rw [e] at this
    exact hn _ this
  have hoP : ∀ y, ¬ g.Partner (mk r) y := by
    intro y hy
    have := h.fresh r y hy
    subst this
    exact hn _ (partner_symm hy)
  refine ⟨hno, ⟨?_, ?_, ?_, ?_, ?_⟩, ⟨?_, ?_, fun _ h => h, ?_, ?_, fun _ h => Or.inl h, ?_, ?_, rfl, rfl, rfl⟩, (hP _ _).2 (Or.inr (Or.inl ⟨rfl, rfl⟩)), ?_⟩
  · intro x y z h1 h2
    rw [hP] at h1 h2
    rcases h1 with h1 | ⟨rfl, rfl⟩ | ⟨rfl, rfl⟩
    · rcases h2 with h2 | ⟨rfl, rfl⟩ | ⟨rfl, rfl⟩
      · exact h.one x y z h1 h2
      · exact absurd h1 (hn y)
      · exact absurd h1 (hoP y)
    · rcases h2 with h2 | ⟨_, rfl⟩ | ⟨e, rfl⟩
      · exact absurd h2 (hn z)
      · rfl
      · exact e.symm
    · rcases h2 with h2 | ⟨e, rfl⟩ | ⟨_, rfl⟩
      · exact absurd h2 (hoP z)
      · exact absurd e (hne _)
      · rfl
  · intro x y h1
    rw [hP] at h1
    rcases h1 with h1 | ⟨e, _⟩ | ⟨e, rfl⟩
    · exact h.fresh x y h1
    · exact absurd e (hne x)
    · exact (hinj _ _ e).symm
  · intro x hx
    rw [hP]
    by_cases e : mk x = mk r
    · exact Or.inr (Or.inr ⟨e, hinj _ _ e⟩)
    · left
      apply h.ment
      rcases hx with hx | hx
      · simp only [RG.addNew, Bool.or_eq_true, decide_eq_true_eq] at hx
        exact Or.inl (hx.resolve_left e)
      · right
        unfold OG.nodes at *
        simp only [RG.addNew, List.mem_append, mem_addSet] at hx ⊢
        rcases hx with a | a | a
        · exact Or.inl a
        · exact Or.inr a
        · exact absurd a e
  · intro x hx
    simp only [RG.addNew, Bool.or_eq_true, decide_eq_true_eq] at hx
    rcases hx with rfl | hx
    · exact hmk r
    · exact h.iri x hx
  · intro x y h1
    rw [hP] at h1
    simp only [RG.addNew, Bool.or_eq_true, decide_eq_true_eq]
    rcases h1 with h1 | ⟨_, rfl⟩ | ⟨_, rfl⟩
    · exact Or.inr (h.known x y h1)
    · exact Or.inl rfl
    · exact Or.inr hk
  · intro x y hxy
    exact (hP x y).2 (Or.inl hxy)
  · intro x hx
    simp [RG.addNew, hx]
  · intro t ht
    exact (mem_addSet _ _ _).2 (Or.inl ht)
  · intro t ht
    exact (mem_addSet _ _ _).2 (Or.inl ht)
  · intro t ht
    rcases (mem_addSet _ _ _).1 ht with p | p
    · exact Or.inl p
    · subst p
      exact Or.inr ⟨hn, hno⟩
  · intro t ht
    rcases (mem_addSet _ _ _).1 ht with p | p
    · exact Or.inl p
    · subst p
      exact Or.inr hno
  · simp [RG.addNew]

/-- What one `inverse` query guarantees. -/
structure InvOk (mk : (Node I) → (Node I)) (U : List (Node I)) (g : RG I) (r i : Node I) (g' : RG I) : Prop where
  wf : g'.WF mk
  ext : g.Extends g'
  partner : g'.Partner r i
  covers : Covers U g'
  below : (∀ y, ¬ g.Partner r y) → ∀ s, s ∈ direct g.og false r → ∃ si, g'.Partner s si ∧ (i, si) ∈ g'.og.sub

theorem addSupers_spec {mk : (Node I) → (Node I)} {U : List (Node I)} {fuel : Nat} {rec : (RG I) → (Node I) → Option ((Node I) × (RG I))}
    (hrec : ∀ g r, g.WF mk → g.og.known r = true → Covers U g → openCount U g < fuel → ∃ i g', rec g r = some (i, g') ∧ InvOk mk U g r i g')
    {g0 : RG I} {o : Node I} (ho0 : ¬ g0.Mentions o) :
    ∀ (ss : List (Node I)) (g : RG I), g.WF mk → g0.Extends g → g.og.known o = true → (∀ s ∈ ss, g.og.known s = true) → Covers U g → openCount U g < fuel →
      ∃ g', addSupers rec o ss g = some g' ∧ g'.WF mk ∧ g0.Extends g' ∧ (∀ x y, g.Partner x y → g'.Partner x y) ∧ Covers U g' ∧
        (∀ t ∈ g.og.sub, t ∈ g'.og.sub) ∧
        ∀ s ∈ ss, ∃ si, g'.Partner s si ∧ (o, si) ∈ g'.og.sub := by
  intro ss
  induction ss with
  | nil =>
    intro g hw he _ _ hc _
    exact ⟨g, rfl, hw, he, fun _ _ h => h, hc, fun _ h => h, by simp⟩
  | cons s ss ih =>
    intro g hw he hko hks hc hf
    obtain ⟨si, g1, h1, h2⟩ := hrec g s hw (hks s List.mem_cons_self) hc hf
    have hsi : g1.og.known si = true := h2.wf.known s si h2.partner
    have hw' := addSub_wf h2.wf (h2.ext.known o hko) hsi
    obtain ⟨g', k1, k2, k3, k4, k5, k6, k7⟩ := ih (g1.addSub o si) hw' (addSub_extends (extends_trans he h2.ext) ho0) (h2.ext.known o hko)
      (fun x hx => h2.ext.known x (hks x (List.mem_cons_of_mem _ hx))) h2.covers
      (Nat.lt_of_le_of_lt (openCount_mono (g := g) (fun x y h => h2.ext.partner x y h)) hf)
    refine ⟨g', ?_, k2, k3, fun x y h => k4 x y (h2.ext.partner x y h), k5, ?_, ?_⟩
    · unfold addSupers
      rw [h1]
      exact k1
    · intro t ht
      exact k6 t ((mem_addSet _ _ _).2 (Or.inl (h2.ext.sub t ht)))
    · intro x hx
      rcases List.mem_cons.1 hx with rfl | hx
      · exact ⟨si, k4 _ _ h2.partner, k6 _ ((mem_addSet _ _ _).2 (Or.inr rfl))⟩
      · exact k7 x hx

theorem inverse_spec {mk : (Node I) → (Node I)} (hinj : ∀ x y, mk x = mk y → x = y) (hmk : ∀ x, (mk x).isBNode = false) {U : List (Node I)} :
    ∀ (fuel : Nat) (g : RG I) (r : Node I), g.WF mk → g.og.known r = true → Covers U g → openCount U g < fuel →
      ∃ i g', RG.inverse mk fuel g r = some (i, g') ∧ InvOk mk U g r i g' := by
  intro fuel
  induction fuel with
  | zero => intro g r _ _ _ h; omega
  | succ fuel ih =>
    intro g r hw hk hc hf
    unfold RG.inverse
    cases hl : g.lookup r with
    | some i =>
      have hp := lookup_some (hw.iri r hk) hl
      exact ⟨i, g, rfl, hw, extends_refl g, hp, hc, fun hn => absurd hp (hn i)⟩
    | none =>
      dsimp only
      have hn := lookup_none hl
      obtain ⟨a1, a2, a3, a4, a5⟩ := addNew_spec hinj hmk hw hk hn
      have hrU : r ∈ U := (hc r hk).resolve_right (fun ⟨y, hy⟩ => hn y hy)
      have hcov : Covers U (g.addNew r (mk r)) := by
        intro x hx
        by_cases e : x = mk r
        · exact Or.inr ⟨r, by rw [e]; exact partner_symm a4⟩
        · have : g.og.known x = true := by
            simp only [RG.addNew, Bool.or_eq_true, decide_eq_true_eq] at hx
            exact hx.resolve_left e
          rcases hc x this with h | ⟨y, hy⟩
          · exact Or.inl h
          · exact Or.inr ⟨y, a3.partner x y hy⟩
      have hlt := openCount_lt (U := U) a3.partner hrU (hw.iri r hk) hn a4
      obtain ⟨g', k1, k2, k3, k4, k5, k6, k7⟩ := addSupers_spec (mk := mk) (U := U) (fuel := fuel) (rec := RG.inverse mk fuel) ih (g0 := g) (o := mk r) a1
        (direct (g.addNew r (mk r)).og false r) _ a2 a3 a5 (fun s hs => ((direct_exact _ _ _ _).1 hs).2.2) hcov (by omega)
      refine ⟨mk r, g', by rw [k1], k2, k3, k4 _ _ a4, k5, ?_⟩
      intro _ s hs
      apply k7
      obtain ⟨⟨b1, b2⟩, b3, b4⟩ := (direct_exact _ _ _ _).1 hs
      refine (direct_exact _ _ _ _).2 ⟨⟨b1, ?_⟩, b3, a3.known s b4⟩
      show if r = g.og.bottom then s ∈ (g.addNew r (mk r)).og.typed else (r, s) ∈ g.og.sub
      change if r = g.og.bottom then s ∈ g.og.typed else (r, s) ∈ g.og.sub at b2
      by_cases e : r = g.og.bottom
      · rw [if_pos e] at b2 ⊢; exact a3.typed s b2
      · rw [if_neg e] at b2 ⊢; exact b2

end Osp.Onto
