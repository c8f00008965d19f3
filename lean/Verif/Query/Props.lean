import Verif.Query.Model
/-! # C46 QueryResult is a faithful, cached view -/
namespace Osp.Query
variable {α : Type}

/-! ### helper lemmas -/

/-- The full result: what was produced already and what is still to come. -/
def Q.total (q : Q α) : List (Option α) := q.elements ++ q.rest

theorem next_total (q : Q α) : (next q).2.total = q.total := by
  unfold next pull Q.total
  cases h : q.rest <;> simp [h]

theorem all_total (q : Q α) : (all q).2.total = q.total := by simp [all, Q.total]

theorem first_total (q : Q α) : (first q).2.total = q.total := by
  unfold first pull Q.total
  cases h : q.elements <;> cases h' : q.rest <;> simp [h, h']

theorem one_total (q : Q α) (b : Bool) : (one q b).2.total = q.total := by
  unfold one
  rw [← first_total q]
  generalize first q = f
  obtain ⟨x, q⟩ := f
  simp only
  split
  · rw [all_total]
  · unfold pull
    cases h : q.rest with
    | nil => simp only; split <;> rfl
    | cons y ys => simp only; rw [all_total]; simp [Q.total, h]

theorem genNext_total (q : Q α) (g : Gen) : (genNext q g).2.1.total = q.total := by
  have hl : (liveNext q).2.1.total = q.total := by
    unfold liveNext pull Q.total
    cases h : q.rest <;> simp [h]
  cases g with
  | done => rfl
  | live => exact hl
  | cached i =>
    simp only [genNext]
    cases q.elements[i]? with
    | some x => rfl
    | none => exact hl

/-! ### the properties -/

/-- After any interleaving of calls nothing is lost or produced twice: cached elements and the rest are still the original result. -/
theorem history_total [DecidableEq α] (total : List (Option α)) (cs : List (Call α)) : (Sys.run ⟨⟨[], total⟩, []⟩ cs).q.total = total := by
  have : ∀ (cs : List (Call α)) (s : Sys α), (Sys.run s cs).q.total = s.q.total := by
    intro cs
    induction cs with
    | nil => intro s; rfl
    | cons c cs ih =>
      intro s
      rw [Sys.run, List.foldl_cons]
      refine (ih (s.step c)).trans ?_
      cases c with
      | next => exact next_total _
      | all => exact all_total _
      | first => exact first_total _
      | one b => exact one_total _ b
      | contains x => exact all_total _
      | newIter => rfl
      | iter i =>
        simp only [Sys.step]
        split
        · rfl
        · exact genNext_total _ _
  rw [this]
  simp [Q.total]

/-- After any history, `all()` returns the full result in order. -/
theorem all_faithful [DecidableEq α] (total : List (Option α)) (cs : List (Call α)) : (all (Sys.run ⟨⟨[], total⟩, []⟩ cs).q).1 = total := by
  have := history_total total cs
  simpa [all, Q.total] using this

/-- After any history, `x in result` tests membership in the full result. -/
theorem contains_faithful [DecidableEq α] (total : List (Option α)) (cs : List (Call α)) (x : Option α) :
    (contains (Sys.run ⟨⟨[], total⟩, []⟩ cs).q x).1 = true ↔ x ∈ total := by
  have := all_faithful total cs
  simp only [contains]
  rw [this]
  simp

/-- After any history, `first()` returns the first element, `None` for the empty result. -/
theorem first_faithful [DecidableEq α] (total : List (Option α)) (cs : List (Call α)) :
    (first (Sys.run ⟨⟨[], total⟩, []⟩ cs).q).1 = total.head?.join := by
  have := history_total total cs
  revert this
  generalize (Sys.run ⟨⟨[], total⟩, []⟩ cs).q = q
  rintro rfl
  unfold first pull Q.total
  cases h : q.elements <;> cases h' : q.rest <;> simp

/-- After any history, `one()` returns the only element; it raises MultipleResultsError exactly if there is more than one element and
ResultEmptyError (if asked to) exactly if there is none or the only one is `None`. -/
theorem one_faithful [DecidableEq α] (total : List (Option α)) (cs : List (Call α)) (b : Bool) :
    (one (Sys.run ⟨⟨[], total⟩, []⟩ cs).q b).1 =
      match total with
      | [] => if b then .error .resultEmpty else .ok none
      | [none] => if b then .error .resultEmpty else .ok none
      | [some x] => .ok (some x)
      | _ :: _ :: _ => .error .multipleResults := by
  have := history_total total cs
  revert this
  generalize (Sys.run ⟨⟨[], total⟩, []⟩ cs).q = q
  rintro rfl
  obtain ⟨el, re⟩ := q
  unfold one first pull Q.total
  cases b <;> rcases el with _ | ⟨a, _ | ⟨a', el⟩⟩ <;> rcases re with _ | ⟨c, _ | ⟨c', re⟩⟩ <;> simp
  all_goals first
    | (cases a <;> simp) | (cases c <;> simp) | skip

/-- `next(result)` returns the first element no call has produced so far, and StopIteration exactly when all have been produced. -/
theorem next_faithful [DecidableEq α] (total : List (Option α)) (cs : List (Call α)) :
    let q := (Sys.run ⟨⟨[], total⟩, []⟩ cs).q
    (next q).1 = match total[q.elements.length]? with | some x => .ok x | none => .error .stopIteration := by
  intro q
  have : q.total = total := history_total total cs
  rw [← this]
  unfold next pull Q.total
  cases h : q.rest <;> simp

/-- An iteration that is not interleaved with other calls yields the full result in order, whatever happened before it started, and then ends. -/
theorem iteration_faithful [DecidableEq α] (total : List (Option α)) (cs : List (Call α)) :
    (genTake (Sys.run ⟨⟨[], total⟩, []⟩ cs).q (.cached 0) (total.length + 1)).1 = total := by
  have := history_total total cs
  revert this
  generalize (Sys.run ⟨⟨[], total⟩, []⟩ cs).q = q
  rintro rfl
  have hlive : ∀ (n : Nat) (q : Q α) (g : Gen), (g = .live ∨ g = .cached q.elements.length) → q.rest.length < n →
      (genTake q g n).1 = q.rest := by
    intro n
    induction n with
    | zero => intro q g _ h; omega
    | succ n ih =>
      intro q g hg h
      have hgn : genNext q g = liveNext q := by
        rcases hg with rfl | rfl
        · rfl
        · simp [genNext]
      unfold genTake
      rw [hgn]
      unfold liveNext pull
      cases hr : q.rest with
      | nil => rfl
      | cons x xs =>
        simp only
        rw [ih _ _ (Or.inl rfl) (by simp only [hr, List.length_cons] at h; simp only; omega)]
  have hcached : ∀ (k : Nat) (i n : Nat) (q : Q α), q.elements.length - i = k → i ≤ q.elements.length → k + q.rest.length < n →
      (genTake q (.cached i) n).1 = q.elements.drop i ++ q.rest := by
    intro k
    induction k with
    | zero =>
      intro i n q h1 h2 h3
      have : i = q.elements.length := by omega
      subst this
      rw [hlive n q _ (Or.inr rfl) (by omega)]
      simp
    | succ k ih =>
      intro i n q h1 h2 h3
      cases n with
      | zero => omega
      | succ n =>
        have hi : i < q.elements.length := by omega
        have he : q.elements[i]? = some q.elements[i] := by simp [hi]
        unfold genTake genNext
        simp only [he]
        rw [ih (i + 1) n q (by omega) (by omega) (by omega)]
        rw [List.drop_eq_getElem_cons hi]
        rfl
  have := hcached q.elements.length 0 (q.total.length + 1) q (by omega) (by omega) (by simp [Q.total])
  rw [this]
  simp [Q.total]

/-- The next position of a generator in the full result. -/
def Gen.pos (q : Q α) : Gen → Nat
  | .cached i => i
  | .live => q.elements.length
  | .done => q.total.length

/-- A generator never points beyond the cache. -/
def Gen.Ok (q : Q α) (g : Gen) : Prop := ∀ i, g = .cached i → i ≤ q.elements.length

/-- A generator interleaved with anything else yields elements of the full result at strictly increasing positions: no duplicates, right order. (Other
calls only append to the cache, so they never decrease the position.) -/
theorem iteration_in_order_step (q : Q α) (g : Gen) (hg : g.Ok q) (x : Option α) (q' : Q α) (g' : Gen) (h : genNext q g = (some x, q', g')) :
    ∃ k, g.pos q ≤ k ∧ q.total[k]? = some x ∧ g'.pos q' = k + 1 := by
  have hl : ∀ q : Q α, liveNext q = (some x, q', g') → q.total[q.elements.length]? = some x ∧ g'.pos q' = q.elements.length + 1 := by
    intro q h
    unfold liveNext pull at h
    cases hr : q.rest with
    | nil => simp [hr] at h
    | cons y ys =>
      simp only [hr, Prod.mk.injEq, Option.some.injEq] at h
      obtain ⟨rfl, rfl, rfl⟩ := h
      simp [Q.total, hr, Gen.pos]
  cases g with
  | done => simp [genNext] at h
  | live => exact ⟨_, Nat.le_refl _, hl q h⟩
  | cached i =>
    unfold genNext at h
    simp only at h
    split at h
    · rename_i y hy
      simp only [Prod.mk.injEq, Option.some.injEq] at h
      obtain ⟨rfl, rfl, rfl⟩ := h
      refine ⟨i, Nat.le_refl _, ?_, rfl⟩
      have hi : i < q.elements.length := by
        rcases Nat.lt_or_ge i q.elements.length with h | h
        · exact h
        · rw [List.getElem?_eq_none h] at hy; cases hy
      rw [Q.total, List.getElem?_append_left hi]
      exact hy
    · rename_i hy
      have : q.elements.length ≤ i := by
        rcases Nat.lt_or_ge i q.elements.length with h | h
        · simp [h] at hy
        · exact h
      obtain ⟨h1, h2⟩ := hl q h
      exact ⟨_, hg i rfl, h1, h2⟩

theorem elements_grow [DecidableEq α] (s : Sys α) (c : Call α) : s.q.elements.length ≤ (s.step c).q.elements.length := by
  have hfirst : ∀ q : Q α, q.elements.length ≤ (first q).2.elements.length := by
    intro q
    unfold first pull
    cases h : q.elements <;> cases h' : q.rest <;> simp [h]
  have hall : ∀ q : Q α, q.elements.length ≤ (all q).2.elements.length := by intro q; simp [all]
  cases c with
  | next => simp only [Sys.step, next, pull]; cases h : s.q.rest <;> simp
  | all => exact hall _
  | first => exact hfirst _
  | one b =>
    simp only [Sys.step, one]
    have h1 := hfirst s.q
    generalize first s.q = f at h1
    obtain ⟨x, q⟩ := f
    simp only at h1 ⊢
    split
    · exact Nat.le_trans h1 (hall q)
    · unfold pull
      cases h : q.rest with
      | nil => simp only; split <;> exact h1
      | cons y ys => simp only [all, List.length_append]; omega
  | contains x => exact hall _
  | newIter => exact Nat.le_refl _
  | iter i =>
    have hl : ∀ q : Q α, q.elements.length ≤ (liveNext q).2.1.elements.length := by
      intro q; unfold liveNext pull; cases h : q.rest <;> simp
    simp only [Sys.step]
    split
    · exact Nat.le_refl _
    · rename_i g _
      cases g with
      | done => exact Nat.le_refl _
      | live => exact hl _
      | cached i =>
        simp only [genNext]
        cases h : s.q.elements[i]? with
        | some x => exact Nat.le_refl _
        | none => exact hl _

theorem gens_ok [DecidableEq α] (total : List (Option α)) (cs : List (Call α)) :
    ∀ g ∈ (Sys.run ⟨⟨[], total⟩, []⟩ cs).gens, g.Ok (Sys.run ⟨⟨[], total⟩, []⟩ cs).q := by
  have : ∀ (cs : List (Call α)) (s : Sys α), (∀ g ∈ s.gens, g.Ok s.q) → ∀ g ∈ (Sys.run s cs).gens, g.Ok (Sys.run s cs).q := by
    intro cs
    induction cs with
    | nil => intro s h; exact h
    | cons c cs ih =>
      intro s h
      rw [Sys.run, List.foldl_cons]
      refine ih (s.step c) ?_
      have hgrow := elements_grow s c
      have hmono : ∀ g : Gen, g.Ok s.q → g.Ok (s.step c).q := fun g hg i hi => Nat.le_trans (hg i hi) hgrow
      cases c with
      | next => exact fun g hg => hmono g (h g hg)
      | all => exact fun g hg => hmono g (h g hg)
      | first => exact fun g hg => hmono g (h g hg)
      | one b => exact fun g hg => hmono g (h g hg)
      | contains x => exact fun g hg => hmono g (h g hg)
      | newIter =>
        intro g hg
        simp only [Sys.step, List.mem_append, List.mem_cons, List.not_mem_nil, or_false] at hg
        rcases hg with hg | rfl
        · exact hmono g (h g hg)
        · intro i hi; cases hi; exact Nat.zero_le _
      | iter i =>
        intro g hg
        revert hmono
        simp only [Sys.step] at hg ⊢
        cases hgi : s.gens[i]? with
        | none => rw [hgi] at hg; intro hmono; exact h g hg
        | some g0 =>
          rw [hgi] at hg
          simp only at hg ⊢
          intro hmono
          rcases List.mem_or_eq_of_mem_set hg with hg | rfl
          · exact hmono g (h g hg)
          · intro j hj
            have hl : ∀ q : Q α, (liveNext q).2.2 ≠ .cached j := by
              intro q; unfold liveNext pull; cases q.rest <;> simp
            cases g0 with
            | done => cases hj
            | live => exact absurd hj (hl _)
            | cached k =>
              simp only [genNext] at hj ⊢
              cases hk : s.q.elements[k]? with
              | none => rw [hk] at hj; exact absurd hj (hl _)
              | some x =>
                rw [hk] at hj
                simp only [Gen.cached.injEq] at hj
                subst hj
                simp only
                rcases Nat.lt_or_ge k s.q.elements.length with h | h
                · exact h
                · rw [List.getElem?_eq_none h] at hk; cases hk
  exact this cs _ (by simp)

/-- After any history, advancing any iterator of the result yields an element of the full result at a position not before the ones it yielded earlier:
interleaved iterations never repeat an element and keep the order. -/
theorem iteration_in_order [DecidableEq α] (total : List (Option α)) (cs : List (Call α)) (g : Gen) (x : Option α) (q' : Q α) (g' : Gen)
    (hg : g ∈ (Sys.run ⟨⟨[], total⟩, []⟩ cs).gens) (h : genNext (Sys.run ⟨⟨[], total⟩, []⟩ cs).q g = (some x, q', g')) :
    ∃ k, g.pos (Sys.run ⟨⟨[], total⟩, []⟩ cs).q ≤ k ∧ total[k]? = some x ∧ g'.pos q' = k + 1 := by
  have := iteration_in_order_step _ g (gens_ok total cs g hg) x q' g' h
  rw [history_total] at this
  exact this

/-- But interleaved iterations may skip elements: of two iterators over [1, 2, 3] advanced alternately, the first one yields 1, 3. -/
theorem interleaved_iteration_skips :
    let s : Sys Nat := Sys.run ⟨⟨[], [some 1, some 2, some 3]⟩, []⟩ [.newIter, .newIter, .iter 0, .iter 1, .iter 1]
    (s.gens[0]?.map fun g => (genNext s.q g).1) = some (some (some 3)) := by
  decide

example : (one (Sys.run (α := Nat) ⟨⟨[], [some 1]⟩, []⟩ [.first, .newIter, .iter 0]).q true).1 = .ok (some 1) := by decide

end Osp.Query
