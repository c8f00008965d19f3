import Verif.Onto.Spec
/-!
# Helper lemmas for the ontology layer
-/
namespace Osp.Onto

variable {I : Type} [DecidableEq I]

theorem mem_connected (g : OG I) (inverse : Bool) (a b : Node I) :
    b ∈ g.connected inverse a ∧ b.isBNode = false ↔ g.Step inverse a b := by
  unfold OG.connected OG.Step
  cases inverse <;> simp <;> split <;> simp [and_comm]

theorem step_mem_nodes {g : OG I} {inverse : Bool} {a b : Node I} (h : g.Step inverse a b) : b ∈ g.nodes := by
  unfold OG.Step at h
  unfold OG.nodes
  cases inverse <;> simp at h <;> simp only [List.mem_append, List.mem_map]
  · split at h
    · exact Or.inr h.2
    · exact Or.inl (Or.inr ⟨_, h.2, rfl⟩)
  · split at h
    · exact Or.inr h.2
    · exact Or.inl (Or.inl ⟨_, h.2, rfl⟩)

/-- Loop invariant of `_transitive_hull`. -/
structure HInv (g : OG I) (inverse : Bool) (n : Node I) (h : Hull I) : Prop where
  fsub : ∀ x ∈ h.frontier, x ∈ h.visited
  start : n ∈ h.visited
  nodup : h.visited.Nodup
  outNodup : h.out.Nodup
  out : ∀ x, x ∈ h.out ↔ x ∈ h.visited ∧ x ≠ n ∧ g.yields x = true
  reach : ∀ x ∈ h.visited, g.Reach inverse n x

theorem expand_spec {g : OG I} {inverse : Bool} {n cur : Node I} (hcur : g.Reach inverse n cur) :
    ∀ (os : List (Node I)), (∀ o ∈ os, o ∈ g.connected inverse cur) → ∀ (h : Hull I), HInv g inverse n h →
      HInv g inverse n (Hull.expand g os h) ∧
      (∀ x ∈ h.visited, x ∈ (Hull.expand g os h).visited) ∧
      (∀ x ∈ h.frontier, x ∈ (Hull.expand g os h).frontier) ∧
      (∀ o ∈ os, o.isBNode = false → o ∈ (Hull.expand g os h).visited) ∧
      (∀ x ∈ (Hull.expand g os h).visited, x ∈ h.visited ∨ x ∈ (Hull.expand g os h).frontier) ∧
      (Hull.expand g os h).visited.length + h.frontier.length = (Hull.expand g os h).frontier.length + h.visited.length := by
  intro os
  induction os with
  | nil =>
    intro _ h hi
    refine ⟨hi, fun x hx => hx, fun x hx => hx, by simp, fun x hx => Or.inl hx, ?_⟩
    simp [Hull.expand]; omega
  | cons o os ih =>
    intro hos h hi
    have hos' : ∀ o ∈ os, o ∈ g.connected inverse cur := fun x hx => hos x (List.mem_cons_of_mem _ hx)
    unfold Hull.expand
    by_cases hv : o ∈ h.visited
    · rw [if_pos hv]
      obtain ⟨a, b, c, d, e, f⟩ := ih hos' h hi
      refine ⟨a, b, c, ?_, e, f⟩
      intro x hx hb
      rcases List.mem_cons.1 hx with rfl | hx
      · exact b _ hv
      · exact d x hx hb
    · rw [if_neg hv]
      by_cases hb : o.isBNode = true
      · rw [if_pos hb]
        obtain ⟨a, b, c, d, e, f⟩ := ih hos' h hi
        refine ⟨a, b, c, ?_, e, f⟩
        intro x hx hb'
        rcases List.mem_cons.1 hx with rfl | hx
        · simp [hb] at hb'
        · exact d x hx hb'
      · rw [if_neg hb]
        have hne : o ≠ n := fun e => hv (e ▸ hi.start)
        have hst : g.Step inverse cur o := (mem_connected g inverse cur o).1 ⟨hos o List.mem_cons_self, by simpa using hb⟩
        have hno : o ∉ h.out := fun hx => hv ((hi.out o).1 hx).1
        have hi' : HInv g inverse n ⟨o :: h.visited, o :: h.frontier, if g.yields o then h.out ++ [o] else h.out⟩ := by
          refine ⟨?_, List.mem_cons_of_mem _ hi.start, List.nodup_cons.2 ⟨hv, hi.nodup⟩, ?_, ?_, ?_⟩
          · intro x hx
            rcases List.mem_cons.1 hx with rfl | hx
            · exact List.mem_cons_self
            · exact List.mem_cons_of_mem _ (hi.fsub x hx)
          · dsimp only
            split
            · rw [List.nodup_append]
              refine ⟨hi.outNodup, by simp, ?_⟩
              intro a ha b hb
              simp only [List.mem_cons, List.not_mem_nil, or_false] at hb
              subst hb
              rintro rfl
              exact hno ha
            · exact hi.outNodup
          · intro x
            dsimp only
            by_cases hy : g.yields o = true
            · rw [if_pos hy]
              simp only [List.mem_append, List.mem_cons, List.not_mem_nil, or_false, hi.out x]
              constructor
              · rintro (⟨a, b, c⟩ | rfl)
                · exact ⟨Or.inr a, b, c⟩
                · exact ⟨Or.inl rfl, hne, hy⟩
              · rintro ⟨rfl | a, b, c⟩
                · exact Or.inr rfl
                · exact Or.inl ⟨a, b, c⟩
            · rw [if_neg hy]
              simp only [List.mem_cons, hi.out x]
              constructor
              · rintro ⟨a, b, c⟩
                exact ⟨Or.inr a, b, c⟩
              · rintro ⟨rfl | a, b, c⟩
                · exact absurd c hy
                · exact ⟨a, b, c⟩
          · intro x hx
            rcases List.mem_cons.1 hx with rfl | hx
            · exact hcur.tail hst
            · exact hi.reach x hx
        obtain ⟨a, b, c, d, e, f⟩ := ih hos' _ hi'
        refine ⟨a, fun x hx => b x (List.mem_cons_of_mem _ hx), fun x hx => c x (List.mem_cons_of_mem _ hx), ?_, ?_, ?_⟩
        · intro x hx hb'
          rcases List.mem_cons.1 hx with rfl | hx
          · exact b _ List.mem_cons_self
          · exact d x hx hb'
        · intro x hx
          rcases e x hx with hx | hx
          · rcases List.mem_cons.1 hx with rfl | hx
            · exact Or.inr (c _ List.mem_cons_self)
            · exact Or.inl hx
          · exact Or.inr hx
        · simp only [List.length_cons] at f
          omega

theorem mem_eraseIdx_or {α : Type} : ∀ (l : List α) (i : Nat) (d x : α), x ∈ l → x = l.getD i d ∨ x ∈ l.eraseIdx i := by
  intro l
  induction l with
  | nil => intro i d x hx; cases hx
  | cons a l ih =>
    intro i d x hx
    cases i with
    | zero =>
      rcases List.mem_cons.1 hx with rfl | hx
      · exact Or.inl (by simp)
      · exact Or.inr (by simpa using hx)
    | succ i =>
      rcases List.mem_cons.1 hx with rfl | hx
      · exact Or.inr (by simp)
      · rcases ih i d x hx with h | h
        · exact Or.inl (by simpa using h)
        · exact Or.inr (by simp [h])

theorem nodup_length_le {α : Type} [DecidableEq α] : ∀ (l u : List α), l.Nodup → (∀ x ∈ l, x ∈ u) → l.length ≤ u.length := by
  intro l
  induction l with
  | nil => intro u _ _; simp
  | cons a l ih =>
    intro u hn hs
    rw [List.nodup_cons] at hn
    have ha : a ∈ u := hs a List.mem_cons_self
    have := ih (u.erase a) hn.2 (fun x hx => by
      have hxa : x ≠ a := fun e => hn.1 (e ▸ hx)
      exact (List.mem_erase_of_ne hxa).2 (hs x (List.mem_cons_of_mem _ hx)))
    rw [List.length_erase_of_mem ha] at this
    have hpos : 0 < u.length := List.length_pos_of_mem ha
    simp only [List.length_cons]
    omega

theorem hullLoop_spec {g : OG I} {inverse : Bool} {n : Node I} (pick : List (Node I) → Nat) :
    ∀ (fuel : Nat) (h : Hull I), HInv g inverse n h →
      (∀ v ∈ h.visited, v ∉ h.frontier → ∀ b, g.Step inverse v b → b ∈ h.visited) →
      g.nodes.length + 2 + h.frontier.length ≤ fuel + h.visited.length →
      ∃ out, hullLoop g inverse pick fuel h = some out ∧ out.Nodup ∧
        ∀ x, x ∈ out ↔ g.Reach inverse n x ∧ x ≠ n ∧ g.yields x = true := by
  intro fuel
  induction fuel with
  | zero =>
    intro h hi hc hf
    exfalso
    have hle : h.visited.length ≤ (n :: g.nodes).length := by
      apply nodup_length_le _ _ hi.nodup
      intro x hx
      rcases Relation.ReflTransGen.cases_tail (hi.reach x hx) with e | ⟨y, _, hy⟩
      · exact e ▸ List.mem_cons_self
      · exact List.mem_cons_of_mem _ (step_mem_nodes hy)
    simp only [List.length_cons] at hle
    omega
  | succ fuel ih =>
    intro h hi hc hf
    unfold hullLoop
    cases hF : h.frontier with
    | nil =>
      refine ⟨h.out, rfl, hi.outNodup, ?_⟩
      intro x
      rw [hi.out x]
      constructor
      · rintro ⟨a, b, c⟩
        exact ⟨hi.reach x a, b, c⟩
      · rintro ⟨a, b, c⟩
        refine ⟨?_, b, c⟩
        clear b c
        induction a with
        | refl => exact hi.start
        | tail _ hs ih' => exact hc _ ih' (by rw [hF]; simp) _ hs
    | cons f fs =>
      dsimp only
      have hlt : pick (f :: fs) % (f :: fs).length < (f :: fs).length := Nat.mod_lt _ (by simp)
      generalize hI : pick (f :: fs) % (f :: fs).length = i at hlt
      have hcm : (f :: fs).getD i f ∈ h.frontier := by
        rw [hF, List.getD_eq_getElem?_getD, List.getElem?_eq_getElem hlt]
        exact List.getElem_mem _
      generalize hC : (f :: fs).getD i f = cur at hcm
      have hi' : HInv g inverse n { h with frontier := (f :: fs).eraseIdx i } :=
        ⟨fun x hx => hi.fsub x (by rw [hF]; exact List.mem_of_mem_eraseIdx hx), hi.start, hi.nodup, hi.outNodup, hi.out, hi.reach⟩
      obtain ⟨a, b, c, d, e, k⟩ := expand_spec (hi.reach cur (hi.fsub cur hcm)) (g.connected inverse cur) (fun _ h => h) _ hi'
      apply ih _ a
      · intro v hv hvf y hy
        rcases e v hv with hv' | hv'
        · by_cases hvF : v ∈ h.frontier
          · rw [hF] at hvF
            rcases mem_eraseIdx_or (f :: fs) i f v hvF with h1 | h1
            · rw [hC] at h1
              subst h1
              obtain ⟨h2, h3⟩ := (mem_connected g inverse v y).2 hy
              exact d y h2 h3
            · exact absurd (c v h1) hvf
          · exact b y (hc v hv' hvF y hy)
        · exact absurd hv' hvf
      · rw [List.length_eraseIdx_of_lt hlt] at k
        rw [hF] at hf
        simp only [List.length_cons] at hf k hlt
        omega

theorem yields_iff (g : OG I) (x : Node I) : g.yields x = true ↔ x ∉ g.blacklist ∧ g.known x = true := by
  simp [OG.yields]

end Osp.Onto
