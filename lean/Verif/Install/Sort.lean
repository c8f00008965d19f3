import Verif.Install.Spec
/-!
# The order of installation: facts about the sorting loop
-/
namespace Osp.Install
variable {G B R : Type}

theorem inOrder_nil (req : Text → Text → Prop) (t : List Text) : InOrder req t [] := by
  intro b x a h; cases b <;> cases h

theorem inOrder_append {req : Text → Text → Prop} {t a b : List Text} (ha : InOrder req t a) (hb : InOrder req (t ++ a) b) : InOrder req t (a ++ b) := by
  intro pre x post h r hr
  rcases List.append_eq_append_iff.1 h with ⟨c, h1, h2⟩ | ⟨c, h1, h2⟩
  · -- pre = a ++ c
    rcases hb c x post h2 r hr with h3 | h3
    · rcases List.mem_append.1 h3 with h4 | h4
      · exact Or.inl h4
      · exact Or.inr (by rw [h1]; exact List.mem_append_left _ h4)
    · exact Or.inr (by rw [h1]; exact List.mem_append_right _ h3)
  · -- a = pre ++ c, x :: post = c ++ b
    cases c with
    | nil =>
      simp only [List.nil_append] at h2
      simp only [List.append_nil] at h1
      rcases hb [] x post (by simpa using h2.symm) r hr with h3 | h3
      · rcases List.mem_append.1 h3 with h4 | h4
        · exact Or.inl h4
        · exact Or.inr (by rw [← h1]; exact h4)
      · simp at h3
    | cons y c =>
      simp only [List.cons_append, List.cons.injEq] at h2
      obtain ⟨rfl, h2⟩ := h2
      exact ha pre x c h1 r hr

theorem inOrder_mono {req req' : Text → Text → Prop} {t t' l : List Text} (h : InOrder req t l) (ht : ∀ x ∈ t, x ∈ t') (hr : ∀ x ∈ l, ∀ r, req' x r → req x r) : InOrder req' t' l := by
  intro a x b e r hx
  rcases h a x b e r (hr x (by rw [e]; simp) r hx) with h1 | h1
  · exact Or.inl (ht _ h1)
  · exact Or.inr h1

/-- A list whose members have all requirements there is in order. -/
theorem inOrder_of_all {req : Text → Text → Prop} {t l : List Text} (h : ∀ x ∈ l, ∀ r, req x r → r ∈ t) : InOrder req t l := by
  intro a x b e r hr
  exact Or.inl (h x (by rw [e]; simp) r hr)

/-- What holds while the loop runs: of the requirements of the packages still to be placed, those not there yet are still listed. -/
structure Loop (req : Text → Text → Prop) (inst res : List Text) (reqs : List (Text × List Text)) : Prop where
  sound : ∀ e ∈ reqs, ∀ r ∈ e.2, req e.1 r
  complete : ∀ e ∈ reqs, ∀ r, req e.1 r → r ∈ e.2 ∨ r ∈ inst ∨ r ∈ res

abbrev step (inst res : List Text) (reqs : List (Text × List Text)) : List (Text × List Text) :=
  reqs.map (fun e => (e.1, e.2.filter (fun r => r ∉ inst ∧ r ∉ res)))

abbrev ready (inst res : List Text) (reqs : List (Text × List Text)) : List Text := ((step inst res reqs).filter (fun e => e.2 = [])).map (·.1)

abbrev rest (inst res : List Text) (reqs : List (Text × List Text)) : List (Text × List Text) := (step inst res reqs).filter (fun e => e.1 ∉ ready inst res reqs)

theorem rounds_cons (n : Nat) (inst res : List Text) (e : Text × List Text) (l : List (Text × List Text)) :
    rounds (n + 1) inst res (e :: l) = if ready inst res (e :: l) = [] then .error .runtimeError else rounds n inst (res ++ ready inst res (e :: l)) (rest inst res (e :: l)) := rfl

theorem mem_ready {inst res : List Text} {reqs : List (Text × List Text)} {x : Text} : x ∈ ready inst res reqs ↔ ∃ e ∈ reqs, e.1 = x ∧ ∀ r ∈ e.2, r ∈ inst ∨ r ∈ res := by
  simp only [ready, step, List.mem_map, List.mem_filter, decide_eq_true_eq]
  constructor
  · rintro ⟨e, ⟨⟨e0, h0, rfl⟩, h1⟩, rfl⟩
    refine ⟨e0, h0, rfl, fun r hr => ?_⟩
    have := List.filter_eq_nil_iff.1 h1 r hr
    simp only [decide_eq_true_eq] at this
    by_cases hi : r ∈ inst
    · exact Or.inl hi
    · by_cases h2 : r ∈ res
      · exact Or.inr h2
      · exact absurd ⟨hi, h2⟩ this
  · rintro ⟨e, h0, rfl, h1⟩
    refine ⟨(e.1, _), ⟨⟨e, h0, rfl⟩, ?_⟩, rfl⟩
    refine List.filter_eq_nil_iff.2 (fun r hr => ?_)
    simp only [decide_eq_true_eq]
    rcases h1 r hr with h2 | h2
    · exact fun h => h.1 h2
    · exact fun h => h.2 h2

theorem rest_keys (inst res : List Text) (reqs : List (Text × List Text)) : (rest inst res reqs).map (·.1) = (reqs.map (·.1)).filter (fun x => x ∉ ready inst res reqs) := by
  simp only [rest]
  generalize ready inst res reqs = a
  induction reqs with
  | nil => rfl
  | cons e l ih =>
    simp only [step, List.map_cons, List.filter_cons]
    split
    · simp only [List.map_cons]; rw [← ih]
    · exact ih

theorem ready_keys_nodup {inst res : List Text} {reqs : List (Text × List Text)} (h : (reqs.map (·.1)).Nodup) : (ready inst res reqs).Nodup := by
  have : (ready inst res reqs).Sublist ((step inst res reqs).map (·.1)) := (List.filter_sublist).map _
  refine this.nodup ?_
  simpa [step, List.map_map, Function.comp_def] using h

/-- The names split into those ready and the others. -/
theorem ready_rest_perm {inst res : List Text} {reqs : List (Text × List Text)} (h : (reqs.map (·.1)).Nodup) :
    (ready inst res reqs ++ (rest inst res reqs).map (·.1)).Perm (reqs.map (·.1)) := by
  rw [rest_keys]
  have h1 : (ready inst res reqs).Perm ((reqs.map (·.1)).filter (fun x => x ∈ ready inst res reqs)) := by
    refine (List.perm_ext_iff_of_nodup (ready_keys_nodup h) (h.sublist List.filter_sublist)).2 (fun x => ?_)
    simp only [List.mem_filter, decide_eq_true_eq]
    constructor
    · intro hx
      obtain ⟨e, he, h1, _⟩ := mem_ready.1 hx
      exact ⟨List.mem_map.2 ⟨e, he, h1⟩, hx⟩
    · exact fun hx => hx.2
  refine (h1.append_right _).trans ?_
  have := List.filter_append_perm (fun x => decide (x ∈ ready inst res reqs)) (reqs.map (·.1))
  simpa using this

theorem rest_loop {req : Text → Text → Prop} {inst res : List Text} {reqs : List (Text × List Text)} (L : Loop req inst res reqs) :
    Loop req inst (res ++ ready inst res reqs) (rest inst res reqs) := by
  constructor
  · intro e he r hr
    simp only [rest, step, List.mem_filter, List.mem_map] at he
    obtain ⟨⟨e0, h0, rfl⟩, -⟩ := he
    exact L.sound e0 h0 r (List.mem_filter.1 hr).1
  · intro e he r hr
    simp only [rest, step, List.mem_filter, List.mem_map] at he
    obtain ⟨⟨e0, h0, rfl⟩, -⟩ := he
    rcases L.complete e0 h0 r hr with h1 | h1 | h1
    · by_cases hi : r ∈ inst
      · exact Or.inr (Or.inl hi)
      · by_cases hs : r ∈ res
        · exact Or.inr (Or.inr (List.mem_append_left _ hs))
        · exact Or.inl (List.mem_filter.2 ⟨h1, by simp [hi, hs]⟩)
    · exact Or.inr (Or.inl h1)
    · exact Or.inr (Or.inr (List.mem_append_left _ h1))

theorem rounds_sound {req : Text → Text → Prop} {inst : List Text} : ∀ (n : Nat) (res : List Text) (reqs : List (Text × List Text)) (order : List Text),
    Loop req inst res reqs → (reqs.map (·.1)).Nodup → InOrder req inst res → rounds n inst res reqs = .ok order →
    InOrder req inst order ∧ order.Perm (res ++ reqs.map (·.1)) := by
  intro n
  induction n with
  | zero =>
    intro res reqs order L hn ho h
    cases reqs with
    | nil => simp only [rounds, Except.ok.injEq] at h; subst h; exact ⟨ho, by simp⟩
    | cons e l => simp [rounds] at h
  | succ n ih =>
    intro res reqs order L hn ho h
    cases reqs with
    | nil => simp only [rounds, Except.ok.injEq] at h; subst h; exact ⟨ho, by simp⟩
    | cons e l =>
      rw [rounds_cons] at h
      split at h
      · cases h
      · have hperm := ready_rest_perm (inst := inst) (res := res) hn
        have hn2 : ((rest inst res (e :: l)).map (·.1)).Nodup := by rw [rest_keys]; exact hn.sublist List.filter_sublist
        have ho2 : InOrder req inst (res ++ ready inst res (e :: l)) := by
          refine inOrder_append ho (inOrder_of_all (fun x hx r hr => ?_))
          obtain ⟨e0, h0, rfl, h1⟩ := mem_ready.1 hx
          rcases L.complete e0 h0 r hr with h2 | h2 | h2
          · rcases h1 r h2 with h3 | h3
            · exact List.mem_append_left _ h3
            · exact List.mem_append_right _ h3
          · exact List.mem_append_left _ h2
          · exact List.mem_append_right _ h2
        obtain ⟨h1, h2⟩ := ih _ _ order (rest_loop L) hn2 ho2 h
        refine ⟨h1, h2.trans ?_⟩
        rw [List.append_assoc]
        exact hperm.append_left res

/-- The bound on the number of rounds is never reached, and the loop fails only when nothing is ready. -/
theorem rounds_fuel {req : Text → Text → Prop} {inst : List Text} : ∀ (n : Nat) (res : List Text) (reqs : List (Text × List Text)) (e : PyErr),
    reqs.length ≤ n → (reqs.map (·.1)).Nodup → Loop req inst res reqs → rounds n inst res reqs = .error e →
    e = .runtimeError ∧ ∃ res' reqs', reqs' ≠ [] ∧ (res' ++ reqs'.map (·.1)).Perm (res ++ reqs.map (·.1)) ∧ Loop req inst res' reqs' ∧ ready inst res' reqs' = [] := by
  intro n
  induction n with
  | zero =>
    intro res reqs e hl _ _ h
    cases reqs with
    | nil => simp [rounds] at h
    | cons a l => simp at hl
  | succ n ih =>
    intro res reqs e hl hn L h
    cases reqs with
    | nil => simp [rounds] at h
    | cons a l =>
      rw [rounds_cons] at h
      split at h
      · rename_i h0
        simp only [Except.error.injEq] at h
        exact ⟨h.symm, res, a :: l, by simp, List.Perm.refl _, L, h0⟩
      · rename_i h0
        have hperm := ready_rest_perm (inst := inst) (res := res) hn
        have hn2 : ((rest inst res (a :: l)).map (·.1)).Nodup := by rw [rest_keys]; exact hn.sublist List.filter_sublist
        have hlen : (rest inst res (a :: l)).length ≤ n := by
          have h1 := hperm.length_eq
          simp only [List.length_append, List.length_map] at h1
          have h2 : 0 < (ready inst res (a :: l)).length := List.length_pos_iff.2 h0
          simp only [List.length_map] at h2
          simp only [List.length_cons] at hl h1
          omega
        obtain ⟨h1, res', reqs', h2, h3, h4⟩ := ih _ _ e hlen hn2 (rest_loop L) h
        refine ⟨h1, res', reqs', h2, h3.trans ?_, h4⟩
        rw [List.append_assoc]
        exact hperm.append_left res

/-- If any order exists, the loop finds one. -/
theorem rounds_complete {req : Text → Text → Prop} {inst : List Text} {reqs : List (Text × List Text)} {o : List Text} (hn : (reqs.map (·.1)).Nodup) (L : Loop req inst [] reqs)
    (ho : ∀ x ∈ reqs.map (·.1), x ∈ o) (hin : InOrder req inst o) (hsub : ∀ x ∈ o, x ∈ reqs.map (·.1)) : ∃ order, rounds reqs.length inst [] reqs = .ok order := by
  cases h : rounds reqs.length inst [] reqs with
  | ok order => exact ⟨order, rfl⟩
  | error e =>
    exfalso
    obtain ⟨-, res, rem, hne, hperm, L', hready⟩ := rounds_fuel _ _ _ e (Nat.le_refl _) hn L h
    have hmem : ∀ x, x ∈ reqs.map (·.1) ↔ x ∈ res ∨ x ∈ rem.map (·.1) := fun x => by
      rw [← List.mem_append]; simpa using (hperm.mem_iff (a := x)).symm
    -- the first package of the order that is still to be placed is ready
    obtain ⟨b, x, a, hb, hx, hbefore⟩ : ∃ b x a, o = b ++ x :: a ∧ x ∈ rem.map (·.1) ∧ ∀ y ∈ b, y ∉ rem.map (·.1) := by
      have hex : ∃ x ∈ o, x ∈ rem.map (·.1) := by
        cases rem with
        | nil => exact absurd rfl hne
        | cons e0 l => exact ⟨e0.1, ho _ ((hmem _).2 (Or.inr (by simp))), by simp⟩
      clear hin hsub ho
      induction o with
      | nil => obtain ⟨x, hx, _⟩ := hex; cases hx
      | cons y l ih =>
        by_cases hy : y ∈ rem.map (·.1)
        · exact ⟨[], y, l, rfl, hy, by simp⟩
        · obtain ⟨b, x, a, h1, h2, h3⟩ := ih (by
            obtain ⟨x, hx, hx2⟩ := hex
            rcases List.mem_cons.1 hx with rfl | hx
            · exact absurd hx2 hy
            · exact ⟨x, hx, hx2⟩)
          refine ⟨y :: b, x, a, by rw [h1]; rfl, h2, ?_⟩
          intro z hz
          rcases List.mem_cons.1 hz with rfl | hz
          · exact hy
          · exact h3 z hz
    obtain ⟨e0, he0, rfl⟩ := List.mem_map.1 hx
    have : e0.1 ∈ ready inst res rem := by
      refine mem_ready.2 ⟨e0, he0, rfl, fun r hr => ?_⟩
      rcases hin b e0.1 a hb r (L'.sound e0 he0 r hr) with h1 | h1
      · exact Or.inl h1
      · have h2 : r ∈ reqs.map (·.1) := hsub r (by rw [hb]; exact List.mem_append_left _ h1)
        rcases (hmem r).1 h2 with h3 | h3
        · exact Or.inr h3
        · exact absurd h3 (hbefore r h1)
    rw [hready] at this
    cases this

end Osp.Install
