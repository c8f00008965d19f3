import Verif.Stmt.Lemmas
/-!
# SQL statements: theorems (C89)
-/
namespace Osp.Stmt
open Osp.Sql

variable {Y : Type}

/-- The expanded condition joined to the old one. Proof device; nothing in /repo. -/
def merge (S : PySet (Cell Y)) (old : Option (Cond (Cell Y))) (c : Cond (Cell Y)) : Cond (Cell Y) := match old with
  | none => c
  | some (.and old) => match c with
    | .and new => mkAnd S (old ++ new)
    | c => mkAnd S (old ++ [c])
  | some old => match c with
    | .and new => mkAnd S (new ++ [old])
    | c => mkAnd S [old, c]

theorem where_eq (S : PySet (Cell Y)) (q : Query Y) {c d : Cond (Cell Y)} (h : expandCond S c = .ok d) (hc : checkArgs [.cond d] = .ok ()) :
    q.where_ S (some c) = .ok { q with cond := some (merge S q.cond d) } := by
  unfold Query.where_
  simp only [expandOpt, h, condItem, hc]
  cases hq : q.cond with
  | none => rfl
  | some old => cases old <;> cases d <;> rfl

theorem merge_holds (S : PySet (Cell Y)) (q : Query Y) (c : Cond (Cell Y)) (row : Text → Text → Cell Y) :
    (merge S q.cond c).holds row ↔ q.Holds row ∧ c.holds row := by
  unfold Query.Holds merge
  cases q.cond with
  | none => simp
  | some old =>
    cases old <;> cases c <;>
      simp only [mkAnd_holds, Cond.holds, holdsL_iff, List.mem_append, List.mem_cons, List.not_mem_nil, or_false, forall_eq_or_imp, forall_eq] <;>
      constructor
    all_goals
      first
        | (intro h; exact h)
        | (intro h; exact ⟨fun x hx => h x (.inl hx), fun x hx => h x (.inr hx)⟩)
        | (rintro ⟨h1, h2⟩ x (hx | rfl) <;> first | exact h1 x hx | exact h2 x hx | exact h1 | exact h2)
        | (rintro ⟨h1, h2⟩ x (hx | hx) <;> first | exact h1 x hx | exact h2 x hx)
        | (intro h; exact ⟨fun x hx => h x (.inl hx), h _ (.inr rfl)⟩)
        | (intro h; exact ⟨h _ (.inr rfl), fun x hx => h x (.inl hx)⟩)

/-- **C89.** `where` keeps the tables and the columns, and the new query asks for the old conditions and the new one, in whatever order they are given; a vector is
compared column by column. It raises (a ValueError) exactly if a name in the condition contains a semicolon. -/
theorem where_means (S : PySet (Cell Y)) (q : Query Y) (c : Cond (Cell Y)) (h : Fits c) :
    (∃ cond, q.where_ S (some c) = .ok { q with cond := some cond } ∧ ∀ row, cond.holds row ↔ q.Holds row ∧ Means row c) ∨
    q.where_ S (some c) = .error .valueError := by
  obtain ⟨d, e, hd⟩ := expandCond_ok S c h
  by_cases hc : checkArgs [.cond d] = .ok ()
  · exact .inl ⟨_, where_eq S q e hc, fun row => by rw [merge_holds, hd]⟩
  · refine .inr ?_
    unfold Query.where_
    simp only [expandOpt, e, condItem, (check_cond d).2 hc]

/-- **C89.** Without a condition `where` changes nothing. -/
theorem where_none (S : PySet (Cell Y)) (q : Query Y) : q.where_ S none = .ok q := by
  have : checkArgs [(.none : Item (Cell Y))] = .ok () := check_ok (by
    intro x hx
    cases List.mem_singleton.1 hx
    exact ⟨(fun t h => by cases h), (fun h => by cases h)⟩)
  unfold Query.where_
  simp only [expandOpt, condItem, this]

/-- **C89.** An alias can be used once: joining with one that is in the query raises an exception and changes nothing. -/
theorem join_used_alias (q : Query Y) (table : Text) (columns : List Text) (dts : Dts) (alias : Option Text)
    (h : ∃ e ∈ q.tables, e.1 = aliasOr alias table) : ∃ e, q.join table columns dts alias = .error e := by
  unfold Query.join
  have : q.tables.any (fun e => decide (e.1 = aliasOr alias table)) = true := by
    obtain ⟨e, he, hh⟩ := h
    exact List.any_eq_true.2 ⟨e, he, decide_eq_true hh⟩
  simp only
  cases expandNames dts columns [] dts with
  | error e => exact ⟨e, rfl⟩
  | ok r =>
    cases hc : checkArgs (namesItems (Y := Y) table r.1 r.2 (aliasOr alias table)) with
    | error e => exact ⟨e, by simp only [hc]⟩
    | ok u => exact ⟨.valueError, by simp only [hc, this, if_true]⟩

/-- What `_get_condition_pattern` gives for an optional condition. -/
theorem condPatternOpt_spec (c : Option (Cond (Cell Y))) (h : ∀ d, c = some d → d.plain = true) :
    ∃ parts : List Part, (condPatternOpt c).1 = joinWith " AND ".toList (parts.map Part.render) ∧ (parts.filterMap Part.param).Nodup ∧
      (∀ p ∈ parts.filterMap Part.param, "cond".toList <+: p) ∧
      ∀ row, (∀ p ∈ parts, p.holds row (condPatternOpt c).2) ↔ ∀ d, c = some d → d.holds row := by
  cases c with
  | none =>
    refine ⟨[.one], by simp [condPatternOpt, joinWith, Part.render], by simp [List.filterMap_cons, Part.param], by simp [List.filterMap_cons, Part.param], fun row => ?_⟩
    simp [Part.holds]
  | some c =>
    have hp := h c rfl
    generalize hpre : "cond".toList = pre
    refine ⟨(leaves c).map (Leaf.part pre), ?_, ?_, ?_, ?_⟩
    · simp only [condPatternOpt, hpre]
      rw [condPattern_eq, text, List.map_map]; rfl
    · rw [params_eq]
      exact nodup_map_inj (fun e => List.append_cancel_left (List.append_cancel_right e)) (nums_nodup c hp)
    · intro p hp
      rw [params_eq] at hp
      obtain ⟨k, -, rfl⟩ := List.mem_map.1 hp
      exact ⟨k ++ "_value".toList, by rw [List.append_assoc]⟩
    · intro row
      simp only [condPatternOpt, hpre]
      have e : (∀ d, some c = some d → d.holds row) ↔ c.holds row := ⟨fun h => h c rfl, fun h d e => by cases e; exact h⟩
      rw [e, ← leaves_means row c, condPattern_eq, List.forall_mem_map]
      apply forall_congr'
      intro l
      apply forall_congr'
      intro hl
      cases l with
      | eq t col n v =>
        simp only [Leaf.part, Part.holds, Leaf.means]
        rw [bindAll_mem (nums_nodup c hp) hl, Option.some.injEq]
        exact eq_comm
      | join => rfl
      | one => rfl

theorem dbSelect_snd (q : Query Y) : (dbSelect q).2 = (condPatternOpt q.cond).2 := by
  unfold dbSelect
  with_reducible rfl

theorem dbSelect_fst (q : Query Y) {parts : List Part} (e : (condPatternOpt q.cond).1 = joinWith " AND ".toList (parts.map Part.render)) :
    (dbSelect q).1 = Select.render ⟨q.columns, q.tables, parts⟩ := by
  unfold dbSelect Select.render
  rw [← e]

theorem dbDelete_snd (t : Text) (c : Option (Cond (Cell Y))) : (dbDelete t c).2 = (condPatternOpt c).2 := by
  unfold dbDelete
  with_reducible rfl

theorem dbDelete_fst (t : Text) (c : Option (Cond (Cell Y))) {parts : List Part} (e : (condPatternOpt c).1 = joinWith " AND ".toList (parts.map Part.render)) :
    (dbDelete t c).1 = renderDelete t parts := by
  unfold dbDelete renderDelete
  rw [← e]

theorem dbUpdate_snd (t : Text) (cols : List Text) (vs : List (Cell Y)) (c : Option (Cond (Cell Y))) :
    (dbUpdate t cols vs c).2 = dictUpdate (listValues "val".toList 0 vs) (condPatternOpt c).2 := by
  unfold dbUpdate
  with_reducible rfl

theorem sets_eq (cols : List Text) (n : Nat) (pre eq : Text) : (cols.zip (List.range n)).map (fun x => quoted x.1 ++ eq ++ (':' :: listParam pre x.2)) =
    (cols.zip ((List.range n).map (listParam pre))).map (fun x => quoted x.1 ++ eq ++ (':' :: x.2)) := by
  rw [List.zip_map_right, List.map_map]
  rfl

theorem dbUpdate_fst (t : Text) (cols : List Text) (vs : List (Cell Y)) (c : Option (Cond (Cell Y))) {parts : List Part}
    (e : (condPatternOpt c).1 = joinWith " AND ".toList (parts.map Part.render)) :
    (dbUpdate t cols vs c).1 = renderUpdate t (cols.zip ((List.range vs.length).map (listParam "val".toList))) parts := by
  unfold dbUpdate renderUpdate
  rw [← e, ← sets_eq]

/-- **C89.** The SELECT statement of a query: its columns, its tables and, joined by AND, comparisons that hold with the parameters bound exactly if the condition of the query
does; no parameter is used twice. For conditions without the collisions of C49; all conditions the triple store builds are such (`query_plain`, `remove_plain`). -/
theorem select_statement (q : Query Y) (h : ∀ c, q.cond = some c → c.plain = true) :
    ∃ parts : List Part, (dbSelect q).1 = Select.render ⟨q.columns, q.tables, parts⟩ ∧ (parts.filterMap Part.param).Nodup ∧
      ∀ row, (∀ p ∈ parts, p.holds row (dbSelect q).2) ↔ q.Holds row := by
  obtain ⟨parts, e, hn, -, hm⟩ := condPatternOpt_spec q.cond h
  refine ⟨parts, ?_, hn, fun row => ?_⟩
  · exact dbSelect_fst q e
  · rw [dbSelect_snd]
    refine Iff.trans (hm row) ?_
    unfold Query.Holds
    cases q.cond with
    | none => simp
    | some c => exact ⟨fun h => h c rfl, fun h d e => by cases e; exact h⟩

/-- The rows the statement of a query returns, in terms of the condition of the query. -/
theorem select_rows [DecidableEq Y] (q : Query Y) (h : ∀ c, q.cond = some c → c.plain = true) (db : Base Y) (P : (Text → Text → Cell Y) → Bool)
    (hP : ∀ row ∈ combinations db q.tables, P row = true ↔ q.Holds row) :
    ∃ s : Select, (dbSelect q).1 = s.render ∧ s.eval (dbSelect q).2 db = ((combinations db q.tables).filter P).map (fun e => q.columns.map (fun x => e x.1 x.2)) := by
  obtain ⟨parts, e, -, hm⟩ := select_statement q h
  refine ⟨_, e, ?_⟩
  unfold Select.eval
  congr 1
  apply List.filter_congr
  intro row hr
  rw [Bool.eq_iff_iff, decide_eq_true_iff, hP row hr]
  exact hm row

/-! ### insertions and updates -/

theorem listParam_inj {pre : Text} {i j : Nat} (h : listParam pre i = listParam pre j) : i = j := by
  unfold listParam at h
  have := List.append_cancel_left h
  injection this with _ h
  exact dec_injective h

theorem listValues_lt {pre : Text} : ∀ {vs : List (Cell Y)} {n i : Nat}, i < n → listValues pre n vs (listParam pre i) = none
  | [], _, _, _ => rfl
  | v :: vs, n, i, h => by
    rw [listValues, dictUpdate, listValues_lt (Nat.lt_succ_of_lt h), Option.none_or, if_neg]
    intro e
    have := listParam_inj e
    omega

theorem listValues_get {pre : Text} : ∀ {vs : List (Cell Y)} {n i : Nat}, listValues pre n vs (listParam pre (n + i)) = vs[i]?
  | [], _, _ => rfl
  | v :: vs, n, 0 => by
    rw [Nat.add_zero, listValues, dictUpdate, listValues_lt (Nat.lt_succ_self _)]
    simp
  | v :: vs, n, i + 1 => by
    rw [listValues, dictUpdate]
    have := listValues_get (pre := pre) (vs := vs) (n := n + 1) (i := i)
    rw [show n + (i + 1) = n + 1 + i by omega, this, List.getElem?_cons_succ, if_neg (fun e => by have := listParam_inj e; omega), Option.or_none]

theorem listValues_none {pre : Text} : ∀ {vs : List (Cell Y)} {n : Nat} {k : Text}, (∀ i, k ≠ listParam pre i) → listValues pre n vs k = none
  | [], _, _, _ => rfl
  | v :: vs, n, k, h => by
    rw [listValues, dictUpdate, listValues_none h, if_neg (h n)]; rfl

/-- **C89.** An INSERT names the table and the columns, and the value of every column is bound to its own parameter. -/
theorem insert_statement (table : Text) (columns : List Text) (values : List (Cell Y)) (h : columns.length = values.length) :
    ∃ params : List Text, params.length = columns.length ∧ params.Nodup ∧ (dbInsert table columns values).1 = renderInsert table columns params ∧
      ∀ (i : Nat) (p : Text), params[i]? = some p → (dbInsert table columns values).2 p = values[i]? := by
  refine ⟨(List.range values.length).map (listParam "val".toList), by simp [h], ?_, ?_, ?_⟩
  · exact nodup_map_inj listParam_inj List.nodup_range
  · unfold dbInsert renderInsert
    simp only [List.map_map]
    rfl
  · intro i p hp
    rw [List.getElem?_map, Option.map_eq_some_iff] at hp
    obtain ⟨j, hj, rfl⟩ := hp
    obtain ⟨hl, e⟩ := List.getElem?_eq_some_iff.1 hj
    rw [List.getElem_range] at e
    subst e
    have := listValues_get (pre := "val".toList) (vs := values) (n := 0) (i := i)
    rw [Nat.zero_add] at this
    exact this

theorem bindAll_prefix {V : Type} {pre : Text} : ∀ {ls : List (Leaf V)} {k : Text}, ¬ pre <+: k → bindAll pre ls k = none
  | [], _, _ => rfl
  | l :: ls, k, h => by
    rw [bindAll, bindAll_prefix h, Option.none_or]
    cases l with
    | eq t c n v =>
      rw [Leaf.bind, if_neg]
      rintro rfl
      exact h ⟨n ++ "_value".toList, by rw [List.append_assoc]⟩
    | join => rfl
    | one => rfl

theorem condPatternOpt_val (c : Option (Cond (Cell Y))) (i : Nat) : (condPatternOpt c).2 (listParam "val".toList i) = none := by
  cases c with
  | none => rfl
  | some c =>
    have h : ¬ "cond".toList <+: listParam "val".toList i := by
      rintro ⟨k, e⟩
      have := congrArg List.head? e
      revert this
      simp [listParam]
    simp only [condPatternOpt, condPattern_eq]
    exact bindAll_prefix h

theorem listParam_not_cond {i : Nat} : ¬ "cond".toList <+: listParam "val".toList i := by
  rintro ⟨k, e⟩
  have := congrArg List.head? e
  revert this
  simp [listParam]

/-- **C89.** An UPDATE assigns to every column its own value and applies to the rows for which the condition holds: the parameters of the values and those of the condition never collide. -/
theorem update_statement (table : Text) (columns : List Text) (values : List (Cell Y)) (c : Option (Cond (Cell Y))) (h : columns.length = values.length)
    (hc : ∀ d, c = some d → d.plain = true) :
    ∃ (params : List Text) (parts : List Part), params.length = columns.length ∧ (params ++ parts.filterMap Part.param).Nodup ∧
      (dbUpdate table columns values c).1 = renderUpdate table (columns.zip params) parts ∧
      (∀ (i : Nat) (p : Text), params[i]? = some p → (dbUpdate table columns values c).2 p = values[i]?) ∧
      ∀ row, (∀ p ∈ parts, p.holds row (dbUpdate table columns values c).2) ↔ ∀ d, c = some d → d.holds row := by
  obtain ⟨parts, e, hn, hpre, hm⟩ := condPatternOpt_spec c hc
  have hnd : ((List.range values.length).map (listParam "val".toList)).Nodup := nodup_map_inj listParam_inj List.nodup_range
  refine ⟨(List.range values.length).map (listParam "val".toList), parts, by simp [h], ?_, ?_, ?_, ?_⟩
  · rw [List.nodup_append]
    refine ⟨hnd, hn, ?_⟩
    intro a ha b hb e
    obtain ⟨i, -, rfl⟩ := List.mem_map.1 ha
    subst e
    exact listParam_not_cond (hpre _ hb)
  · exact dbUpdate_fst table columns values c e
  · intro i p hp
    rw [List.getElem?_map, Option.map_eq_some_iff] at hp
    obtain ⟨j, hj, rfl⟩ := hp
    obtain ⟨hl, e⟩ := List.getElem?_eq_some_iff.1 hj
    rw [List.getElem_range] at e
    subst e
    have := listValues_get (pre := "val".toList) (vs := values) (n := 0) (i := i)
    rw [Nat.zero_add] at this
    rw [dbUpdate_snd, dictUpdate, condPatternOpt_val, Option.none_or]
    exact this
  · intro row
    refine Iff.trans ?_ (hm row)
    apply forall_congr'
    intro p
    apply forall_congr'
    intro hp
    cases p with
    | eq t col k =>
      simp only [Part.holds]
      rw [dbUpdate_snd, dictUpdate, listValues_none, Option.or_none]
      intro i e
      have := hpre k (List.mem_filterMap.2 ⟨_, hp, rfl⟩)
      rw [e] at this
      exact listParam_not_cond this
    | join => rfl
    | one => rfl

/-- **C89.** A DELETE names the table and removes the rows for which the condition holds. -/
theorem delete_statement [DecidableEq Y] (table : Text) (c : Option (Cond (Cell Y))) (hc : ∀ d, c = some d → d.plain = true) (rows : List (Row Y))
    (P : Row Y → Bool) (hP : ∀ r ∈ rows, P r = true ↔ ∀ d, c = some d → d.holds (fun _ c => r c)) :
    ∃ parts : List Part, (dbDelete table c).1 = renderDelete table parts ∧ evalDelete parts (dbDelete table c).2 rows = rows.filter (fun r => !P r) := by
  obtain ⟨parts, e, -, -, hm⟩ := condPatternOpt_spec c hc
  refine ⟨parts, ?_, ?_⟩
  · exact dbDelete_fst table c e
  · rw [dbDelete_snd]
    unfold evalDelete
    apply List.filter_congr
    intro r hr
    congr 1
    rw [Bool.eq_iff_iff, decide_eq_true_iff, hP r hr]
    exact hm _

end Osp.Stmt
