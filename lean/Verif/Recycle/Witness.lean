import Verif.Recycle.Props
/-!
# A use of `change_oclass` in the repository, non-vacuity and findings (C79, C80)
-/
namespace Osp.Recycle
open Osp.Cuds Osp.Utils

variable {O : Onto} {s : Sess} {A : Abs}

theorem coherent_renew (hco : A.Coherent O.inv) (u : Uid) (c : Cls) (vals : List (Attr × Val)) : (renew A u c vals).Coherent O.inv := by
  constructor
  · rintro a q b ⟨hl, ha, hb⟩
    exact ⟨hco.sym _ _ _ hl, hb, ha⟩
  · rintro a q b ⟨hl, ha, hb⟩
    simpa [renew, ha] using hco.src _ _ _ hl
  · rintro a q b ⟨hl, ha, hb⟩
    simpa [renew, hb] using hco.dst _ _ _ hl

/-- **C79, a person of the dummy simulation moves to the city.** If the person is linked to the wrapper only, by parts of `hasPart`, the person is afterwards a citizen with exactly the given
values, linked to the city only, in both directions; all else stays. -/
theorem move_to_city (hW : O.WF) (h : Refines s A) (hco : A.Coherent O.inv) (w p c : Uid) (hp : p ∈ s.reg) (hc : c ∈ s.reg) (hwp : w ≠ p) (hcp : c ≠ p)
    (citizen : Cls) (vals vals' : List (Attr × Val)) (hn : (vals.map (·.1)).Nodup) (hv : Converted O vals vals') (part inhabitant : Rel)
    (hsome : ∃ r, A.link w r p) (honly : ∀ r x, A.link p r x → x = w ∧ O.subRel (O.inv r) part = true) :
    ∃ s', moveToCity O s w p c citizen vals part inhabitant = ⟨.ok (), s'⟩ ∧
      Refines s' ((renew A p citizen vals').connect O.inv c inhabitant [p]) ∧ ((renew A p citizen vals').connect O.inv c inhabitant [p]).Coherent O.inv := by
  obtain ⟨s1, h1, h2, h3, h4⟩ := change_oclass_exact hW h hco p hp citizen vals vals' hn hv
  obtain ⟨r1, r2, r3⟩ := remove_sim (O := O) h4 w [p] (some part) none (.inr rfl) (fun r x hl => by
    by_cases hx : x = p
    · simp [reclass, hx]
    · simpa [reclass, hx] using hco.dst _ _ _ hl.1)
  have hsub : ∀ r, A.link w r p → O.subRel r part = true := by
    intro r hl
    have := (honly _ _ (hco.sym _ _ _ hl)).2
    rwa [hW.inv_inv] at this
  have he : (reclass A p citizen vals').disconnect O.inv w ((reclass A p citizen vals').selects O [p] (some part) none) = renew A p citizen vals' := by
    unfold Abs.disconnect renew
    simp only [reclass, Abs.mk.injEq, true_and]
    funext a q b
    simp only [Abs.selects, Option.some.injEq, forall_eq', reduceCtorEq, false_implies, implies_true, and_true, eq_iff_iff, List.mem_singleton, false_or,
      List.cons_ne_nil]
    constructor
    · rintro ⟨⟨k1, k2⟩, k3, k4⟩
      refine ⟨k1, k2, fun hb => ?_⟩
      subst hb
      have ha : a = w := (honly _ _ (hco.sym _ _ _ k1)).1
      subst ha
      exact k3 ⟨rfl, ⟨k1, k2⟩, rfl, hsub _ k1⟩
    · rintro ⟨k1, k2, k3⟩
      refine ⟨⟨k1, k2⟩, fun h => k3 h.2.2.1, ?_⟩
      rintro ⟨_, r, _, _, k4, _⟩
      exact k2 k4
  rw [he] at r3
  have hok := r1 (by
    obtain ⟨r, hr⟩ := hsome
    exact ⟨r, p, ⟨hr, hwp⟩, by simp, by simpa using hsub r hr, by simp⟩)
  obtain ⟨k, s2, hrem⟩ : ∃ (_ : Unit) (s2 : Sess), remove O s1 w [p] (some part) none = ⟨.ok (), s2⟩ := ⟨(), _, by rw [← hok]⟩
  rw [hrem] at r3
  have hc2 := coherent_renew (O := O) hco p citizen vals'
  obtain ⟨pre, post, e1, e2, e3, e4, e5⟩ := addLoop_sim (O := O) c inhabitant [p] s2 _ r3
  have hno : ¬ (renew A p citizen vals').link c inhabitant p := fun hl => hl.2.2 rfl
  rcases e5 with ⟨e5, rfl⟩ | ⟨_, x, post', rfl, e6⟩
  · simp only [List.append_nil] at e1
    subst e1
    refine ⟨_, ?_, e2, coherent_connect hW.inv_inv hc2 c inhabitant _ ?_ ?_⟩
    · simp only [moveToCity, h1, hrem, add, Option.some_or]
      rw [← e5]
    · simpa [renew, hcp] using (h.reg c).1 hc
    · intro x hx
      simp only [List.mem_singleton] at hx
      simp [renew, hx]
  · exfalso
    cases pre with
    | nil =>
      simp only [List.nil_append, List.cons.injEq] at e1
      rw [← e1.1] at e6
      rcases e6 with e6 | e6
      · exact hno e6
      · cases e6
    | cons a l =>
      simp only [List.cons_append, List.cons.injEq] at e1
      have := e1.2
      simp at this

/-! ### Non-vacuity -/

theorem exOnto_refl : Refl exOnto := by intro r; simp [exOnto]

/-- A wrapper (1) with the persons 2, 3 and the city 4; 2 and 3 know each other (3). -/
def world : Sess := (run exOnto {} [.create 1 5 [], .create 2 6 [(7, 20)], .create 3 6 [(7, 30)], .create 4 5 [], .add 1 [2, 3, 4] (some 1) none]).2

theorem world_reachable : Reachable exOnto world := by
  refine Export.reachable_run _ _ .init ?_
  repeat' constructor
  all_goals decide

/-- The hypotheses of `move_to_city` are met in a reachable session: person 2 moves to the city 4. -/
example : ∃ A, Refines world A ∧ A.Coherent exOnto.inv ∧ (∃ r, A.link 1 r 2) ∧ (∀ r x, A.link 2 r x → x = 1 ∧ exOnto.subRel (exOnto.inv r) 1 = true) ∧
    (moveToCity exOnto world 1 2 4 8 [(7, 21)] 1 1).res = .ok () := by
  obtain ⟨A, h1, h2⟩ := reachable_view Export.exOnto_wf world_reachable
  refine ⟨A, h1, h2, ⟨1, (h1.link _ _ _).1 (by decide)⟩, ?_, by decide⟩
  intro r x hl
  have hm := (h1.link _ _ _).2 hl
  have : ∀ t ∈ world.g, t.s = 2 → (match t.p, t.o with | .rel r, .cuds x => decide (x = 1 ∧ exOnto.subRel (exOnto.inv r) 1 = true) | _, _ => true) = true := by decide
  exact of_decide_eq_true (this _ hm rfl)

/-- The hypotheses of `recycle_fixing_partial` are met: the wrapper 1 has one relationship, with three links. -/
example : ∃ A, Refines world A ∧ A.Coherent exOnto.inv ∧ (∀ r, r ∈ [1] ↔ ∃ x, A.link 1 r x) ∧
    (∀ pre r post, [1] = pre ++ r :: post → Left exOnto A 1 pre r) ∧ Converted exOnto [(7, 40)] [(7, 40)] := by
  obtain ⟨A, h1, h2⟩ := reachable_view Export.exOnto_wf world_reachable
  have hl : ∀ r x, A.link 1 r x ↔ r = 1 ∧ (x = 2 ∨ x = 3 ∨ x = 4) := by
    intro r x
    rw [← h1.link]
    constructor
    · intro hm
      have : ∀ t ∈ world.g, t.s = 1 → (match t.p, t.o with | .rel r, .cuds x => decide (r = 1 ∧ (x = 2 ∨ x = 3 ∨ x = 4)) | _, _ => true) = true := by decide
      exact of_decide_eq_true (this _ hm rfl)
    · rintro ⟨rfl, rfl | rfl | rfl⟩ <;> decide
  refine ⟨A, h1, h2, ?_, ?_, rfl, rfl, trivial⟩
  · intro r
    constructor
    · intro hr
      simp only [List.mem_singleton] at hr
      exact ⟨2, (hl _ _).2 ⟨hr, .inl rfl⟩⟩
    · rintro ⟨x, hx⟩
      simp [((hl _ _).1 hx).1]
  · intro pre r post he
    cases pre with
    | nil =>
      simp only [List.nil_append, List.cons.injEq] at he
      obtain ⟨rfl, _⟩ := he
      exact ⟨1, 2, (hl _ _).2 ⟨rfl, .inl rfl⟩, rfl, by simp⟩
    | cons a l =>
      simp at he

/-! ### Findings -/

/-- Person 2 also knows person 3. Moving 2 to the city removes this link at 2 and leaves it at 3: `get` on 3 finds 2, `get` on 2 does not find 3. -/
theorem moved_person_forgets_friends :
    let s := (add exOnto world 2 [3] (some 3) none).st
    (moveToCity exOnto s 1 2 4 8 [(7, 21)] 1 1).res = .ok () ∧
    get exOnto (moveToCity exOnto s 1 2 4 8 [(7, 21)] 1 1).st 3 [] (some 3) none = .ok [some 2] ∧
    get exOnto (moveToCity exOnto s 1 2 4 8 [(7, 21)] 1 1).st 2 [] (some 3) none = .ok [] := by
  decide +kernel

/-- Deleting such an object afterwards leaves the links of the neighbours behind: `get` gives `None` for them and removing fails. -/
theorem change_oclass_then_delete_dangles :
    let s := (changeOclass exOnto world 2 8 (.ok [])).st
    (delete exOnto s 2).res = .ok () ∧ (⟨1, .rel 1, .cuds 2⟩ : Triple) ∈ (delete exOnto s 2).st.g ∧
    get exOnto (delete exOnto s 2).st 1 [] none none = .ok [none, some 3, some 4] ∧ (remove exOnto (delete exOnto s 2).st 1 [2] none none).res = .error .attributeError := by
  decide +kernel

/-- Refused keyword arguments leave an object with two classes. -/
theorem refused_change_two_classes :
    (changeOclass exOnto world 2 8 (.error .typeError)).res = .error .typeError ∧
    oclasses (changeOclass exOnto world 2 8 (.error .typeError)).st.g 2 = [6, 8] := by
  decide +kernel

/-- The order of the relationships decides whether an object with links by a relationship and one of its subrelationships can be recycled. -/
theorem recycle_depends_on_order :
    let s := (add exOnto world 1 [2] (some 0) none).st
    (createRecycle exOnto s 1 5 (.ok []) true [0, 1]).res = .error .runtimeError ∧ (createRecycle exOnto s 1 5 (.ok []) true [1, 0]).res = .ok () := by
  decide +kernel

/-- An object that is linked to itself only, by a relationship that is not its own inverse, cannot be recycled in any order. -/
theorem recycle_self_link_fails :
    let s := (run exOnto {} [.create 1 5 [], .add 1 [1] (some 1) none]).2
    neighborRels s.g 1 = [1, 2] ∧ ∀ rels ∈ [[1, 2], [2, 1]], (createRecycle exOnto s 1 5 (.ok []) true rels).res = .error .runtimeError := by
  decide +kernel

end Osp.Recycle
