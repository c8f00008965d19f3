import Verif.Stmt.Spec
import Verif.Sql.Columns
/-!
# Conditions and queries: lemmas (C89)
-/
namespace Osp.Stmt
open Osp.Sql

variable {Y : Type}

theorem holdsL_iff {V : Type} (row : Text → Text → V) : ∀ cs : List (Cond V), Cond.holdsL row cs ↔ ∀ c ∈ cs, c.holds row
  | [] => by simp [Cond.holdsL]
  | c :: cs => by rw [Cond.holdsL, holdsL_iff row cs]; simp

theorem meansAll_iff (row : Text → Text → Cell Y) : ∀ cs : List (Cond (Cell Y)), MeansAll row cs ↔ ∀ c ∈ cs, Means row c
  | [] => by simp [MeansAll]
  | c :: cs => by rw [MeansAll, meansAll_iff row cs]; simp

theorem fitsAll_iff : ∀ cs : List (Cond (Cell Y)), FitsAll cs ↔ ∀ c ∈ cs, Fits c
  | [] => by simp [FitsAll]
  | c :: cs => by rw [FitsAll, fitsAll_iff cs]; simp

theorem plainL_iff {V : Type} : ∀ cs : List (Cond V), Cond.plainL cs = true ↔ ∀ c ∈ cs, c.plain = true
  | [] => by simp [Cond.plainL]
  | c :: cs => by rw [Cond.plainL, Bool.and_eq_true, plainL_iff cs]; simp

theorem pyEq_holds {V : Type} (row : Text → Text → V) {c d : Cond V} (h : PyEq c d) : c.holds row ↔ d.holds row := by
  induction h with
  | eq => rfl
  | join => rfl
  | and as bs f g h1 h2 h3 h4 ih1 ih2 =>
    rw [Cond.holds, Cond.holds, holdsL_iff, holdsL_iff]
    exact ⟨fun h b hb => (ih2 b hb).1 (h _ (h3 b hb)), fun h a ha => (ih1 a ha).2 (h _ (h1 a ha))⟩

theorem PySet.sub {V : Type} (S : PySet V) {l : List (Cond V)} {c : Cond V} (h : c ∈ S.items l) : c ∈ l := by
  obtain ⟨k, hp, hs⟩ := S.part l
  exact hs.subset (hp.subset h)

theorem PySet.length_le {V : Type} (S : PySet V) (l : List (Cond V)) : (S.items l).length ≤ l.length := by
  obtain ⟨k, hp, hs⟩ := S.part l
  rw [hp.length_eq]
  exact hs.length_le

theorem mkAnd_holds {V : Type} (S : PySet V) (row : Text → Text → V) (cs : List (Cond V)) : (mkAnd S cs).holds row ↔ ∀ c ∈ cs, c.holds row := by
  rw [mkAnd, Cond.holds, holdsL_iff]
  constructor
  · intro h c hc
    obtain ⟨d, hd, e⟩ := S.whole cs c hc
    exact (pyEq_holds row e).1 (h d hd)
  · intro h c hc
    exact h c (S.sub hc)

theorem mkAnd_plain {V : Type} (S : PySet V) {cs : List (Cond V)} (h : cs.length ≤ 10 ∨ ∀ c ∈ cs, c.isAnd = false) (h' : ∀ c ∈ cs, c.plain = true) :
    (mkAnd S cs).plain = true := by
  rw [mkAnd, Cond.plain, Bool.and_eq_true, Bool.or_eq_true, plainL_iff]
  refine ⟨?_, fun c hc => h' c (S.sub hc)⟩
  rcases h with h | h
  · exact .inl (decide_eq_true (Nat.le_trans (S.length_le cs) h))
  · refine .inr (List.all_eq_true.2 (fun c hc => ?_))
    rw [h c (S.sub hc)]; rfl

/-! ### expansion -/

/-- The conditions on the elements of a vector. Proof device; nothing in /repo. -/
def elemConds (t c : Text) (l : List Y) (edt : Text) (n : Nat) : List (Cond (Cell Y)) :=
  (((List.range n).map (fun k => c ++ vecSuffix k)).zip l).map (fun x => .eq t x.1 (.val x.2) (some edt))

theorem mem_elemConds {t c edt : Text} {l : List Y} {n : Nat} (h : l.length ≤ n) {d : Cond (Cell Y)} :
    d ∈ elemConds t c l edt n ↔ ∃ k y, l[k]? = some y ∧ d = .eq t (c ++ vecSuffix k) (.val y) (some edt) := by
  unfold elemConds
  rw [List.mem_map]
  constructor
  · rintro ⟨⟨x, y⟩, hm, rfl⟩
    obtain ⟨k, hk, e⟩ := List.getElem_of_mem hm
    rw [List.getElem_zip, List.getElem_map, List.getElem_range] at e
    rw [List.length_zip] at hk
    refine ⟨k, y, ?_, ?_⟩
    · rw [List.getElem?_eq_getElem (by omega)]
      exact congrArg some (congrArg Prod.snd e)
    · rw [← congrArg Prod.fst e]
  · rintro ⟨k, y, hk, rfl⟩
    obtain ⟨hl, rfl⟩ := List.getElem?_eq_some_iff.1 hk
    refine ⟨(c ++ vecSuffix k, l[k]), ?_, rfl⟩
    apply List.mem_iff_getElem.2
    refine ⟨k, ?_, ?_⟩
    · rw [List.length_zip, List.length_map, List.length_range]; omega
    · rw [List.getElem_zip, List.getElem_map, List.getElem_range]

theorem suffix_eq (c : Text) (k : Nat) : c ++ "___".toList ++ dec k = c ++ vecSuffix k := by rw [List.append_assoc]; rfl

mutual
/-- The expansion of a condition whose values have the types of their columns succeeds and keeps the meaning. -/
theorem expandCond_ok (S : PySet (Cell Y)) (c : Cond (Cell Y)) (h : Fits c) : ∃ d, expandCond S c = .ok d ∧ ∀ row, d.holds row ↔ Means row c := by
  match c with
  | .eq t c v dt =>
    obtain ⟨i, rfl, h⟩ := h
    rcases h with ⟨hv, hn⟩ | ⟨e, sh, l, rfl, he, hs, rfl, hl⟩
    · refine ⟨.eq t c v (some i), ?_, ?_⟩
      · rw [expandCond]; simp only [hv, Bool.false_eq_true, if_false]
      · intro row
        cases v with
        | vec l => exact absurd rfl (hn l)
        | _ => rw [Cond.holds, Means]; exact hn
    · refine ⟨mkAnd S (elemConds t c l e (shapeSize sh)), ?_, ?_⟩
      · rw [expandCond]; simp only [isVec_vecIri, if_true, expandedCols_vec he hs]
        rfl
      · intro row
        rw [mkAnd_holds, Means]
        constructor
        · intro h
          refine ⟨⟨_, rfl, isVec_vecIri e sh⟩, fun k y hk => ?_⟩
          have := h _ ((mem_elemConds (by omega)).2 ⟨k, y, hk, rfl⟩)
          rw [suffix_eq]
          exact this
        · rintro ⟨-, h⟩ d hd
          obtain ⟨k, y, hk, rfl⟩ := (mem_elemConds (by omega)).1 hd
          have := h k y hk
          rw [suffix_eq] at this
          exact this
  | .join t1 c1 t2 c2 => exact ⟨_, by rw [expandCond], fun row => by rw [Cond.holds, Means]⟩
  | .and cs =>
    rw [Fits] at h
    obtain ⟨ds, e, hd⟩ := expandConds_ok S cs h
    refine ⟨mkAnd S ds, by rw [expandCond, e], fun row => ?_⟩
    rw [mkAnd_holds, Means, ← holdsL_iff, hd row]
theorem expandConds_ok (S : PySet (Cell Y)) (cs : List (Cond (Cell Y))) (h : FitsAll cs) : ∃ ds, expandConds S cs = .ok ds ∧ ∀ row, Cond.holdsL row ds ↔ MeansAll row cs := by
  match cs with
  | [] => exact ⟨[], by rw [expandConds], fun row => by rw [Cond.holdsL, MeansAll]⟩
  | c :: cs =>
    rw [FitsAll] at h
    obtain ⟨d, e1, h1⟩ := expandCond_ok S c h.1
    obtain ⟨ds, e2, h2⟩ := expandConds_ok S cs h.2
    exact ⟨d :: ds, by rw [expandConds, e1, e2], fun row => by rw [Cond.holdsL, MeansAll, h1, h2]⟩
end

/-! ### checks -/

theorem check_ok {V : Type} {args : List (Item V)} (h : ∀ x ∈ args, (∀ t, Inside t x → ';' ∉ t) ∧ ¬ Odd x) : checkArgs args = .ok () := by
  have hc : Clean ';' args.reverse := by
    intro x hx
    have := h x (List.mem_reverse.1 hx)
    exact ⟨fun t ht => this.1 t ((inside_iff t x).1 ht), fun ho => this.2 ((odd_iff x).1 ho)⟩
  have e : checkArgs args = (match checkLoop ';' (Item.weightL args) args.reverse with | .error e => (.error e : Except PyErr Unit) | .ok l => checkChars (Item.weightL args) forbidden.tail l) := rfl
  rw [e]
  rcases checkLoop_spec ';' (Item.weightL args) args.reverse (by rw [weightL_reverse]; exact Nat.le_refl _) with ⟨h1, h2⟩ | ⟨h1, h2⟩
  · rw [h2]; exact checkChars_nil _ _
  · exact absurd hc h1

theorem check_bad {V : Type} {args : List (Item V)} (h : ¬ ∀ x ∈ args, (∀ t, Inside t x → ';' ∉ t) ∧ ¬ Odd x) : checkArgs args = .error .valueError := by
  have e : checkArgs args = (match checkLoop ';' (Item.weightL args) args.reverse with | .error e => (.error e : Except PyErr Unit) | .ok l => checkChars (Item.weightL args) forbidden.tail l) := rfl
  rw [e]
  rcases checkLoop_spec ';' (Item.weightL args) args.reverse (by rw [weightL_reverse]; exact Nat.le_refl _) with ⟨h1, h2⟩ | ⟨h1, h2⟩
  · refine absurd (fun x hx => ?_) h
    have := h1 x (List.mem_reverse.2 hx)
    exact ⟨fun t ht => this.1 t ((inside_iff t x).2 ht), fun ho => this.2 ((odd_iff x).2 ho)⟩
  · rw [h2]

theorem odd_cond {V : Type} {x : Item V} (h : Odd x) : ∀ c, x ≠ .cond c := by
  induction h with
  | and _ _ ih => intro c _; exact ih _ rfl
  | _ => intro c e; cases e

theorem check_cond {V : Type} (c : Cond V) : (checkArgs [.cond c] = .ok () ↔ ∀ t, Inside t (.cond c) → ';' ∉ t) ∧
    (checkArgs [.cond c] ≠ .ok () → checkArgs [.cond c] = .error .valueError) := by
  have e : (∀ x ∈ [(.cond c : Item V)], (∀ t, Inside t x → ';' ∉ t) ∧ ¬ Odd x) ↔ ∀ t, Inside t (.cond c) → ';' ∉ t := by
    simp only [List.mem_singleton, forall_eq]
    exact ⟨fun h => h.1, fun h => ⟨h, fun ho => odd_cond ho c rfl⟩⟩
  by_cases hc : ∀ t, Inside t (.cond c) → ';' ∉ t
  · have := check_ok (e.2 hc)
    exact ⟨⟨fun _ => hc, fun _ => this⟩, fun h => absurd this h⟩
  · have := check_bad (fun h => hc (e.1 h))
    refine ⟨⟨fun h => ?_, fun h => absurd h hc⟩, fun _ => this⟩
    rw [this] at h; cases h

end Osp.Stmt
