import Verif.Stmt.Exact
/-!
# Deletions, and the parameters of the statements the library builds (C89, C49)
-/
namespace Osp.Stmt
open Osp.Sql

variable {Y : Type}

/-! ### no parameter collides -/

/-- Proof device; nothing in /repo. -/
def Low (n : Nat) (q : Query Y) : Prop := (top q.cond).length ≤ n ∧ ∀ x ∈ top q.cond, x.plain = true

theorem low_where {S : PySet (Cell Y)} {q q' : Query Y} {n m : Nat} {c : Cond (Cell Y)} (h : Low n q) (e : q.where_ S (some c) = .ok q')
    (hc : ∀ d, expandCond S c = .ok d → (top (some d)).length ≤ m ∧ ∀ x ∈ top (some d), x.plain = true) : Low (n + m) q' := by
  cases hd : expandCond S c with
  | error x =>
    unfold Query.where_ at e
    simp only [expandOpt, hd] at e
    cases e
  | ok d =>
    by_cases hk : checkArgs [.cond d] = .ok ()
    · rw [where_eq S q hd hk] at e
      cases e
      have ht := top_merge S q.cond d
      have h1 := hc d hd
      refine ⟨Nat.le_trans ht.1 (Nat.add_le_add h.1 h1.1), fun x hx => ?_⟩
      rcases ht.2 x hx with hx | hx
      · exact h.2 x hx
      · exact h1.2 x hx
    · unfold Query.where_ at e
      simp only [expandOpt, hd, condItem, (check_cond d).2 hk] at e
      cases e

theorem low_where_join {S : PySet (Cell Y)} {q q' : Query Y} {n : Nat} {t1 c1 t2 c2 : Text} (h : Low n q) (e : q.where_ S (some (.join t1 c1 t2 c2)) = .ok q') : Low (n + 1) q' := by
  apply low_where h e
  intro d hd
  rw [expandCond] at hd
  cases hd
  simp [top, Cond.plain]

theorem low_join {q q' : Query Y} {n : Nat} {t : Text} {cs : List Text} {ds : Dts} {a : Option Text} (h : Low n q) (e : q.join t cs ds a = .ok q') : Low n q' := by
  unfold Query.join at e
  simp only at e
  split at e
  · cases e
  · split at e
    · cases e
    · split at e
      · cases e
      · cases e; exact h

theorem low_new {q : Query Y} {t : Text} {cs : List Text} {ds : Dts} {a : Option Text} (e : newQuery t cs ds a = .ok q) : Low 0 q := by
  unfold newQuery at e
  simp only at e
  split at e
  · cases e
  · split at e
    · cases e
    · cases e; exact ⟨Nat.le_refl _, by simp [top]⟩

/-- A comparison. Proof device; nothing in /repo. -/
def IsEq : Cond (Cell Y) → Prop
  | .eq _ _ _ _ => True
  | _ => False

theorem expandEq_plain (S : PySet (Cell Y)) {c d : Cond (Cell Y)} (h : IsEq c) (e : expandCond S c = .ok d) : d.plain = true := by
  cases c with
  | join => exact h.elim
  | and => exact h.elim
  | eq t c v dt =>
    cases dt with
    | none => rw [expandCond] at e; cases e
    | some i =>
      rw [expandCond] at e
      split at e
      · split at e
        · cases e
        · split at e
          · cases e
            apply mkAnd_plain
            · refine .inr (fun x hx => ?_)
              obtain ⟨y, -, rfl⟩ := List.mem_map.1 hx
              rfl
            · intro x hx
              obtain ⟨y, -, rfl⟩ := List.mem_map.1 hx
              rfl
          · cases e
      · cases e; rfl

theorem expandAnd_low (S : PySet (Cell Y)) {cs : List (Cond (Cell Y))} {d : Cond (Cell Y)} (h : ∀ c ∈ cs, IsEq c) (e : expandCond S (mkAnd S cs) = .ok d) :
    (top (some d)).length ≤ cs.length ∧ ∀ x ∈ top (some d), x.plain = true := by
  rw [mkAnd, expandCond] at e
  split at e
  · cases e
  · rename_i ds hds
    cases e
    have hm := expandConds_mem S hds
    have h1 := S.length_le ds
    have h2 := S.length_le cs
    refine ⟨?_, ?_⟩
    · show (S.items ds).length ≤ _
      omega
    · intro x hx
      obtain ⟨c, hc, e⟩ := hm.2 x (S.sub hx)
      exact expandEq_plain S (h c (S.sub hc)) e

theorem getConditions_flat {S : PySet (Cell Y)} {s : Option Nat} {p : Option (Nat × Text)} {o : Option (SObj Y)} {t odt : Text} {c : Cond (Cell Y)} (e : getConditions S s p o t odt = .ok c) :
    ∃ cs, c = mkAnd S cs ∧ cs.length ≤ 5 ∧ ∀ x ∈ cs, IsEq x := by
  have fin : ∀ cs : List (Cond (Cell Y)), cs.length ≤ 5 → (∀ x ∈ cs, IsEq x) → (.ok (mkAnd S cs) : Except PyErr _) = .ok c → ∃ cs, c = mkAnd S cs ∧ cs.length ≤ 5 ∧ ∀ x ∈ cs, IsEq x := by
    intro cs l h e
    cases e
    exact ⟨_, rfl, l, h⟩
  have hne : ¬ relsTable = typesTable := by decide
  have hne' : ¬ typesTable = relsTable := by decide
  cases o with
  | none =>
    by_cases h1 : t = typesTable
    · subst h1
      cases s <;> cases p <;> simp only [getConditions, ne_eq, not_true_eq_false, if_false] at e <;> exact fin _ (by simp) (by simp [IsEq]) e
    · cases s <;> cases p <;> simp only [getConditions, ne_eq, h1, not_false_eq_true, if_true] at e <;> exact fin _ (by simp) (by simp [IsEq]) e
  | some o =>
    by_cases h1 : t = typesTable
    · subst h1
      cases o with
      | cuds u => cases s <;> cases p <;> simp only [getConditions, hne', if_false, if_true] at e <;> cases e
      | lit v => cases s <;> cases p <;> simp only [getConditions, hne', if_false, if_true] at e <;> cases e
      | ent n name => cases s <;> cases p <;> simp only [getConditions, hne', if_false, if_true, ne_eq, not_true_eq_false] at e <;> exact fin _ (by simp) (by simp [IsEq]) e
    · by_cases h2 : t = relsTable
      · subst h2
        cases o with
        | ent n name => cases s <;> cases p <;> simp only [getConditions, if_true] at e <;> cases e
        | lit v => cases s <;> cases p <;> simp only [getConditions, if_true] at e <;> cases e
        | cuds u => cases s <;> cases p <;> simp only [getConditions, hne, ne_eq, not_false_eq_true, if_true] at e <;> exact fin _ (by simp) (by simp [IsEq]) e
      · cases o with
        | ent n name => cases s <;> cases p <;> simp only [getConditions, h1, h2, if_false] at e <;> cases e
        | cuds u => cases s <;> cases p <;> simp only [getConditions, h1, h2, if_false] at e <;> cases e
        | lit v => cases s <;> cases p <;> simp only [getConditions, h1, h2, if_false, ne_eq, not_false_eq_true, if_true] at e <;> exact fin _ (by simp) (by simp [IsEq]) e

theorem bind_ok {α β : Type} {x : Except PyErr α} {f : α → Except PyErr β} {b : β} : (x >>= f) = .ok b ↔ ∃ a, x = .ok a ∧ f a = .ok b := by
  cases x with
  | error e => exact ⟨(fun h => by cases h), (fun ⟨a, h, _⟩ => by cases h)⟩
  | ok a => exact ⟨fun h => ⟨a, rfl, h⟩, fun ⟨a', h, h'⟩ => by cases h; exact h'⟩

/-- **C89, C49.** Every query the library builds from a pattern has a condition whose parameters do not collide, whatever the pattern, the table and the datatype are. -/
theorem query_plain (S : PySet (Cell Y)) (s : Option Nat) (p : Option (Nat × Text)) (o : Option (SObj Y)) (t odt : Text) (q : Query Y) (e : constructQuery S s p o t odt = .ok q) :
    ∀ c, q.cond = some c → c.plain = true := by
  have fin : Low 8 q → ∀ c, q.cond = some c → c.plain = true := by
    intro h c hc
    apply plain_of_top
    · rw [← hc]; exact Nat.le_trans h.1 (by decide)
    · rw [← hc]; exact h.2
  apply fin
  have tail : ∀ (v q7 : Query Y) (cols : List Text) (ds : Dts) (c : Cond (Cell Y)), Low 3 v → v.join t cols ds none = .ok q7 → getConditions S s p o t odt = .ok c → q7.where_ S (some c) = .ok q → Low 8 q := by
    intro v q7 cols ds c hv ej ec ew
    obtain ⟨cs, rfl, hl, hq⟩ := getConditions_flat ec
    exact low_where (low_join hv ej) ew (m := 5) (fun d hd => by
      have := expandAnd_low S hq hd
      exact ⟨by omega, this.2⟩)
  have up : ∀ {q : Query Y}, Low 2 q → Low 3 q := fun h => ⟨Nat.le_trans h.1 (by decide), h.2⟩
  unfold constructQuery at e
  by_cases h1 : t = typesTable
  · have h2 : ¬ t = relsTable := by rw [h1]; decide
    have h3 : tablePrefix.isPrefixOf t = false := by rw [h1]; decide
    simp only [bind_ok, ne_eq, h1, not_true_eq_false, if_false, show ¬ typesTable = relsTable by decide, show tablePrefix.isPrefixOf typesTable = false by decide, Bool.false_eq_true] at e
    rw [← h1] at e
    obtain ⟨q1, e1, q2, e2, q3, e3, q4, e4, q5, e5, q6, e6, c, e7, e8⟩ := e
    cases e5
    exact tail _ _ _ _ _ (up (low_where_join (low_join (low_where_join (low_new e1) e2) e3) e4)) e6 e7 e8
  · by_cases h2 : t = relsTable
    · simp only [bind_ok, ne_eq, h2, not_false_eq_true, if_true, show ¬ relsTable = typesTable by decide, if_false, show tablePrefix.isPrefixOf relsTable = false by decide, Bool.false_eq_true] at e
      rw [← h2] at e
      obtain ⟨q1, e1, q2, e2, q3, e3, q4, e4, q5, e5, q6, e6, q7, e7, c, e8, e9⟩ := e
      exact tail _ _ _ _ _ (low_where_join (low_join (low_where_join (low_join (low_where_join (low_new e1) e2) e3) e4) e5) e6) e7 e8 e9
    · cases h3 : tablePrefix.isPrefixOf t
      · simp only [bind_ok, ne_eq, h1, h2, h3, not_false_eq_true, if_true, if_false, Bool.false_eq_true] at e
        obtain ⟨q1, e1, q2, e2, q3, e3, q4, e4, q5, e5, q6, e6, c, e7, e8⟩ := e
        cases e5
        exact tail _ _ _ _ _ (up (low_where_join (low_join (low_where_join (low_new e1) e2) e3) e4)) e6 e7 e8
      · simp only [bind_ok, ne_eq, h1, h2, h3, not_false_eq_true, if_true, if_false] at e
        obtain ⟨q1, e1, q2, e2, q3, e3, q4, e4, q5, e5, q6, e6, c, e7, e8⟩ := e
        cases e5
        exact tail _ _ _ _ _ (up (low_where_join (low_join (low_where_join (low_new e1) e2) e3) e4)) e6 e7 e8

theorem removeCondition_flat (S : PySet (Cell Y)) (s p : Option Nat) (o : Option (RObj Y)) (t odt : Text) :
    ∃ cs, removeCondition S s p o t odt = mkAnd S cs ∧ cs.length ≤ 3 ∧ ∀ x ∈ cs, IsEq x := by
  unfold removeCondition
  by_cases ht : t = typesTable
  · cases s <;> cases o <;> simp only [ht, if_true] <;> exact ⟨_, rfl, by simp, by simp [IsEq]⟩
  · cases s <;> cases o <;> cases p <;> simp only [ht, if_false] <;> exact ⟨_, rfl, by simp, by simp [IsEq]⟩

/-- **C89, C49.** Every condition the library builds for a deletion is such that its parameters do not collide, also after the vectors are expanded. -/
theorem remove_plain (S : PySet (Cell Y)) (s p : Option Nat) (o : Option (RObj Y)) (t odt : Text) (d : Cond (Cell Y)) (e : expandCond S (removeCondition S s p o t odt) = .ok d) :
    d.plain = true := by
  obtain ⟨cs, hc, hl, hq⟩ := removeCondition_flat S s p o t odt
  rw [hc] at e
  have := expandAnd_low S hq e
  exact plain_of_top (by omega) this.2

/-! ### deletions -/

/-- Proof device; nothing in /repo. -/
def kConds (t c : Text) (s : Option Nat) : List (Cond (Cell Y)) := match s with
  | none => []
  | some k => [.eq t c (.idx k) (some xsdInteger)]

theorem good_kConds {t c : Text} (ht : NoSemi t) (hc : NoSemi c) (s : Option Nat) : ∀ x ∈ (kConds t c s : List (Cond (Cell Y))), GoodEq x := by
  cases s with
  | none => simp [kConds]
  | some k =>
    simp only [kConds, List.mem_singleton, forall_eq]
    exact ⟨ht, hc, _, rfl, .inl ⟨isVec_int, by intro l h; cases h⟩, noSemi_names _ (by simp)⟩

theorem means_kConds (row : Text → Text → Cell Y) {t c : Text} (s : Option Nat) (k : Nat) (h : row t c = .idx k) : (∀ x ∈ (kConds t c s : List (Cond (Cell Y))), Means row x) ↔ Tables.eqC s k = true := by
  cases s with
  | none => simp [kConds, Tables.eqC]
  | some w => simp [kConds, Tables.eqC, Means, h]

theorem inside_and {V : Type} {t : Text} {cs : List (Cond V)} (h : Inside t (.cond (.and cs))) : ∃ c ∈ cs, Inside t (.cond c) := by
  cases h with
  | and hm hi => exact ⟨_, hm, hi⟩

theorem inside_goodEq {c : Cond (Cell Y)} (h : GoodEq c) {t : Text} (ht : Inside t (.cond c)) : NoSemi t := by
  cases c with
  | join => exact h.elim
  | and => exact h.elim
  | eq tb c v dt =>
    obtain ⟨h1, h2, i, rfl, -, h3⟩ := h
    cases ht with
    | table => exact h1
    | column => exact h2
    | datatype => exact h3

/-- A deletion with comparisons of the right types. -/
theorem delete_flat [DecidableEq Y] (S : PySet (Cell Y)) {t : Text} (ht : NoSemi t) {cs : List (Cond (Cell Y))} (hl : cs.length ≤ 10) (hg : ∀ c ∈ cs, GoodEq c) (rows : List (Row Y)) (P : Row Y → Bool)
    (hP : ∀ r ∈ rows, (∀ c ∈ cs, Means (fun _ c => r c) c) ↔ P r = true) :
    ∃ stmt parts, doDelete S t (some (mkAnd S cs)) = .ok stmt ∧ stmt.1 = renderDelete t parts ∧ evalDelete parts stmt.2 rows = rows.filter (fun r => !P r) := by
  obtain ⟨d, e, hlen, hp, -, hm⟩ := expand_flat S hg
  have hc : checkArgs [.str t, condItem (some (mkAnd S cs))] = .ok () := by
    apply check_ok
    intro x hx
    simp only [List.mem_cons, List.not_mem_nil, or_false, condItem] at hx
    rcases hx with rfl | rfl
    · refine ⟨fun t' h => ?_, fun h => nomatch h⟩
      cases h; exact ht
    · refine ⟨fun t' h => ?_, fun h => odd_cond h _ rfl⟩
      obtain ⟨c, hc, hi⟩ := inside_and h
      exact inside_goodEq (hg c (S.sub hc)) hi
  obtain ⟨parts, e1, e2⟩ := delete_statement t (some d) (by
    rintro x hx
    cases hx
    exact plain_of_top (Nat.le_trans hlen hl) hp) rows P (by
    intro r hr
    rw [← hP r hr, ← hm (fun _ c => r c)]
    exact ⟨fun h x hx => by cases hx; exact h, fun h => h d rfl⟩)
  refine ⟨dbDelete t (some d), parts, ?_, e1, e2⟩
  unfold doDelete
  simp only [hc, expandOpt, e]

/-- **C89.** Deleting types: exactly the rows of the table whose subject and class have the given keys are deleted. -/
theorem delete_types [DecidableEq Y] (S : PySet (Cell Y)) (db : Base Y) (D : Tables.Db Text (Dat Y)) (hD : Encodes db D) (s p o : Option Nat) (odt : Text) :
    ∃ stmt parts, doDelete S typesTable (some (removeCondition S s p (o.map .key) typesTable odt)) = .ok stmt ∧ stmt.1 = renderDelete typesTable parts ∧
      evalDelete parts stmt.2 (db typesTable) = (D.types.filter (fun r => !(Tables.eqC s r.1 && Tables.eqC o r.2))).map typeRow := by
  have hc : removeCondition S s p (o.map .key) typesTable odt = mkAnd S (kConds typesTable "s".toList s ++ kConds typesTable "o".toList o) := by
    unfold removeCondition kConds
    cases s <;> cases o <;> simp [RObj.cell]
  have hP : ∀ r ∈ db typesTable, ∃ a ∈ D.types, typeRow a = r := by
    intro r hr
    rw [show typesTable = "OSP_V1_TYPES".toList from rfl, hD.types] at hr
    exact List.mem_map.1 hr
  obtain ⟨stmt, parts, e, e1, e2⟩ := delete_flat S (t := typesTable) (noSemi_names _ (by simp)) (cs := kConds typesTable "s".toList s ++ kConds typesTable "o".toList o)
    (by cases s <;> cases o <;> simp [kConds])
    (by
      intro c hc
      rcases List.mem_append.1 hc with hc | hc
      · exact good_kConds (noSemi_names _ (by simp)) (noSemi_names _ (by simp)) s c hc
      · exact good_kConds (noSemi_names _ (by simp)) (noSemi_names _ (by simp)) o c hc)
    (db typesTable) (fun r => (match r "s".toList with | .idx k => Tables.eqC s k | _ => false) && (match r "o".toList with | .idx k => Tables.eqC o k | _ => false))
    (by
      intro r hr
      obtain ⟨a, -, rfl⟩ := hP r hr
      rw [List.forall_mem_append, means_kConds _ s a.1 (typeRow_s a), means_kConds _ o a.2 (typeRow_o a), typeRow_s, typeRow_o, Bool.and_eq_true])
  refine ⟨stmt, parts, by rw [hc]; exact e, e1, ?_⟩
  rw [e2, show typesTable = "OSP_V1_TYPES".toList from rfl, hD.types, List.filter_map]
  congr 1

/-- **C89.** Deleting relationships: exactly the rows with the given keys are deleted. -/
theorem delete_rels [DecidableEq Y] (S : PySet (Cell Y)) (db : Base Y) (D : Tables.Db Text (Dat Y)) (hD : Encodes db D) (s p o : Option Nat) :
    ∃ stmt parts, doDelete S relsTable (some (removeCondition S s p (o.map .key) relsTable xsdInteger)) = .ok stmt ∧ stmt.1 = renderDelete relsTable parts ∧
      evalDelete parts stmt.2 (db relsTable) = (D.rels.filter (fun r => !(Tables.eqC s r.1 && Tables.eqC p r.2.1 && Tables.eqC o r.2.2))).map relRow := by
  have hc : removeCondition S s p (o.map .key) relsTable xsdInteger = mkAnd S (kConds relsTable "s".toList s ++ kConds relsTable "p".toList p ++ kConds relsTable "o".toList o) := by
    have : ¬ relsTable = typesTable := by decide
    unfold removeCondition kConds
    cases s <;> cases o <;> cases p <;> simp [RObj.cell, this]
  have hP : ∀ r ∈ db relsTable, ∃ a ∈ D.rels, relRow a = r := by
    intro r hr
    rw [show relsTable = "OSP_V1_RELATIONS".toList from rfl, hD.rels] at hr
    exact List.mem_map.1 hr
  obtain ⟨stmt, parts, e, e1, e2⟩ := delete_flat S (t := relsTable) (noSemi_names _ (by simp)) (cs := kConds relsTable "s".toList s ++ kConds relsTable "p".toList p ++ kConds relsTable "o".toList o)
    (by cases s <;> cases o <;> cases p <;> simp [kConds])
    (by
      intro c hc
      rcases List.mem_append.1 hc with hc | hc
      · rcases List.mem_append.1 hc with hc | hc
        · exact good_kConds (noSemi_names _ (by simp)) (noSemi_names _ (by simp)) s c hc
        · exact good_kConds (noSemi_names _ (by simp)) (noSemi_names _ (by simp)) p c hc
      · exact good_kConds (noSemi_names _ (by simp)) (noSemi_names _ (by simp)) o c hc)
    (db relsTable) (fun r => (match r "s".toList with | .idx k => Tables.eqC s k | _ => false) && (match r "p".toList with | .idx k => Tables.eqC p k | _ => false) &&
      (match r "o".toList with | .idx k => Tables.eqC o k | _ => false))
    (by
      intro r hr
      obtain ⟨a, -, rfl⟩ := hP r hr
      rw [List.forall_mem_append, List.forall_mem_append, means_kConds _ s a.1 (relRow_s a), means_kConds _ p a.2.1 (relRow_p a), means_kConds _ o a.2.2 (relRow_o a), relRow_s, relRow_p, relRow_o,
        Bool.and_eq_true, Bool.and_eq_true])
  refine ⟨stmt, parts, by rw [hc]; exact e, e1, ?_⟩
  rw [e2, show relsTable = "OSP_V1_RELATIONS".toList from rfl, hD.rels, List.filter_map]
  congr 1

/-- **C89.** Deleting attributes of one datatype, scalar or vector: exactly the rows with the given keys and the given value are deleted. -/
theorem delete_data [DecidableEq Y] (S : PySet (Cell Y)) (db : Base Y) (D : Tables.Db Text (Dat Y)) (hD : Encodes db D) (s p : Option Nat) (o : Option (Dat Y))
    {d t : Text} (hd : d ∈ D.dts) (ht : dataTableName d = .ok t) (hsemi : ';' ∉ d) (ho : ∀ v, o = some v → v.Fits d) :
    ∃ stmt parts, doDelete S t (some (removeCondition S s p (o.map .lit) t d)) = .ok stmt ∧ stmt.1 = renderDelete t parts ∧
      evalDelete parts stmt.2 (db t) = ((D.data d).filter (fun r => !(Tables.eqC s r.1 && Tables.eqC p r.2.1 && Tables.eqC o r.2.2))).map dataRow := by
  have hns : NoSemi t := table_noSemi ht hsemi
  have hc : removeCondition S s p (o.map .lit) t d = mkAnd S (kConds t "s".toList s ++ kConds t "p".toList p ++ vConds t d o) := by
    have : ¬ t = typesTable := by
      intro e
      have := table_prefix ht
      rw [e] at this
      revert this
      decide
    unfold removeCondition kConds vConds
    cases s <;> cases o <;> cases p <;> simp [RObj.cell, this]
  have hrows := hD.data d hd t ht
  have hP : ∀ r ∈ db t, ∃ a ∈ D.data d, dataRow a = r := by
    intro r hr
    rw [hrows] at hr
    exact List.mem_map.1 hr
  have inj : ∀ a ∈ D.data d, ∀ (row : Text → Text → Cell Y), (∀ c, row t c = dataRow a c) → ((∀ c ∈ vConds t d o, Means row c) ↔ Tables.eqC o a.2.2 = true) :=
    fun a ha row h => means_vConds row o a ho (hD.typed d hd a ha) h
  obtain ⟨stmt, parts, e, e1, e2⟩ := delete_flat S (t := t) hns (cs := kConds t "s".toList s ++ kConds t "p".toList p ++ vConds t d o)
    (by cases s <;> cases o <;> cases p <;> simp [kConds, vConds])
    (by
      intro c hc
      rcases List.mem_append.1 hc with hc | hc
      · rcases List.mem_append.1 hc with hc | hc
        · exact good_kConds hns (noSemi_names _ (by simp)) s c hc
        · exact good_kConds hns (noSemi_names _ (by simp)) p c hc
      · exact good_vConds hns hsemi ho c hc)
    (db t) (fun r => (match r "s".toList with | .idx k => Tables.eqC s k | _ => false) && (match r "p".toList with | .idx k => Tables.eqC p k | _ => false) &&
      @decide (∀ c ∈ vConds t d o, Means (fun _ c => r c) c) (Classical.propDecidable _))
    (by
      intro r hr
      obtain ⟨a, -, rfl⟩ := hP r hr
      rw [List.forall_mem_append, List.forall_mem_append, means_kConds _ s a.1 (dataRow_s a), means_kConds _ p a.2.1 (dataRow_p a), dataRow_s, dataRow_p,
        Bool.and_eq_true, Bool.and_eq_true, @decide_eq_true_iff _ (Classical.propDecidable _)])
  refine ⟨stmt, parts, by rw [hc]; exact e, e1, ?_⟩
  rw [e2, hrows, List.filter_map]
  congr 1
  apply List.filter_congr
  intro a ha
  simp only [Function.comp_apply, dataRow_s, dataRow_p]
  congr 2
  rw [Bool.eq_iff_iff, @decide_eq_true_iff _ (Classical.propDecidable _)]
  exact inj a ha _ (fun c => rfl)

end Osp.Stmt
