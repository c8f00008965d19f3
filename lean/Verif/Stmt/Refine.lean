import Verif.Stmt.Build
/-!
# The statements of the triple store return the rows of its tables (C89)
-/
namespace Osp.Stmt
open Osp.Sql

variable {Y : Type}

/-! ### lists -/

theorem filter_map_eq {α β : Type} (P : α → Bool) (f : α → β) (l : List α) : (l.filter P).map f = l.flatMap (fun x => if P x then [f x] else []) := by
  induction l with
  | nil => rfl
  | cons x l ih =>
    rw [List.filter_cons, List.flatMap_cons, ← ih]
    split <;> simp

theorem flatMap_nil_fun {α β : Type} (l : List α) : l.flatMap (fun _ => ([] : List β)) = [] := by
  induction l with
  | nil => rfl
  | cons x l ih => rw [List.flatMap_cons, ih]; rfl

theorem perm_flatMap_append {α β : Type} (l : List α) (f g : α → List β) : (l.flatMap (fun x => f x ++ g x)).Perm (l.flatMap f ++ l.flatMap g) := by
  induction l with
  | nil => exact .refl _
  | cons x l ih =>
    rw [List.flatMap_cons, List.flatMap_cons, List.flatMap_cons]
    refine ((List.Perm.refl (f x ++ g x)).append ih).trans ?_
    rw [List.append_assoc, List.append_assoc]
    refine (List.Perm.refl (f x)).append ?_
    rw [← List.append_assoc, ← List.append_assoc]
    exact List.perm_append_comm.append (.refl _)

theorem perm_flatMap_comm {α β γ : Type} (l : List α) (m : List β) (f : α → β → List γ) :
    (l.flatMap (fun a => m.flatMap (fun b => f a b))).Perm (m.flatMap (fun b => l.flatMap (fun a => f a b))) := by
  induction l with
  | nil => rw [List.flatMap_nil]; simp only [List.flatMap_nil]; rw [flatMap_nil_fun]
  | cons x l ih =>
    rw [List.flatMap_cons]
    simp only [List.flatMap_cons]
    exact ((List.Perm.refl _).append ih).trans (perm_flatMap_append m (fun b => f x b) _).symm

theorem perm_flatMap_congr {α β : Type} {l : List α} {f g : α → List β} (h : ∀ x ∈ l, (f x).Perm (g x)) : (l.flatMap f).Perm (l.flatMap g) := by
  induction l with
  | nil => exact .refl _
  | cons x l ih =>
    rw [List.flatMap_cons, List.flatMap_cons]
    exact (h x List.mem_cons_self).append (ih (fun y hy => h y (List.mem_cons_of_mem _ hy)))

/-! ### conditions of a pattern -/

/-- Proof device; nothing in /repo. -/
def sConds (s : Option Nat) : List (Cond (Cell Y)) := match s with
  | none => []
  | some u => [.eq "ts".toList "uid".toList (.uid u) (some "UUID".toList)]

/-- Proof device; nothing in /repo. -/
def eConds (a : Text) (p : Option (Nat × Text)) : List (Cond (Cell Y)) := match p with
  | none => []
  | some (n, name) => [.eq a "ns_idx".toList (.idx n) (some xsdInteger), .eq a "name".toList (.txt name) (some xsdString)]

/-- Proof device; nothing in /repo. -/
def uConds (o : Option Nat) : List (Cond (Cell Y)) := match o with
  | none => []
  | some u => [.eq "to".toList "uid".toList (.uid u) (some "UUID".toList)]

/-- Proof device; nothing in /repo. -/
def vConds (t odt : Text) (o : Option (Dat Y)) : List (Cond (Cell Y)) := match o with
  | none => []
  | some v => [.eq t "o".toList v.cell (some odt)]

theorem getConditions_types (S : PySet (Cell Y)) (s : Option Nat) (p : Option (Nat × Text)) (o : Option (Nat × Text)) (odt : Text) :
    getConditions S s p (o.map (fun e => .ent e.1 e.2)) typesTable odt = .ok (mkAnd S (sConds s ++ eConds "to".toList o)) := by
  have h1 : ¬ typesTable = relsTable := by decide
  cases s <;> cases p <;> cases o <;> simp [getConditions, sConds, eConds, h1]

theorem getConditions_rels (S : PySet (Cell Y)) (s : Option Nat) (p : Option (Nat × Text)) (o : Option Nat) (odt : Text) :
    getConditions S s p (o.map (fun u => .cuds u)) relsTable odt = .ok (mkAnd S (sConds s ++ eConds "tp".toList p ++ uConds o)) := by
  have h1 : ¬ relsTable = typesTable := by decide
  cases s <;> cases p <;> cases o <;> simp [getConditions, sConds, eConds, uConds, h1]

theorem getConditions_data (S : PySet (Cell Y)) (s : Option Nat) (p : Option (Nat × Text)) (o : Option (Dat Y)) {t odt : Text} (h1 : t ≠ typesTable) (h2 : t ≠ relsTable) :
    getConditions S s p (o.map (fun v => .lit v)) t odt = .ok (mkAnd S (sConds s ++ eConds "tp".toList p ++ vConds t odt o)) := by
  cases s <;> cases p <;> cases o <;> simp [getConditions, sConds, eConds, vConds, h1, h2]

theorem isVec_uuid : isVec "UUID".toList = false := by decide +kernel
theorem isVec_int : isVec xsdInteger = false := by decide +kernel
theorem isVec_str : isVec xsdString = false := by decide +kernel

/-- Names used in the queries. Proof device; nothing in /repo. -/
theorem noSemi_names : ∀ t ∈ ["ts".toList, "tp".toList, "to".toList, "uid".toList, "cuds_idx".toList, "entity_idx".toList, "ns_idx".toList, "name".toList, "s".toList, "p".toList, "o".toList,
    "UUID".toList, xsdInteger, xsdString, cudsTable, entitiesTable, typesTable, relsTable], NoSemi t := by
  unfold NoSemi
  decide +kernel

theorem good_sConds (s : Option Nat) : ∀ c ∈ (sConds s : List (Cond (Cell Y))), GoodEq c := by
  cases s with
  | none => simp [sConds]
  | some u =>
    simp only [sConds, List.mem_singleton, forall_eq]
    exact ⟨noSemi_names _ (by simp), noSemi_names _ (by simp), _, rfl, .inl ⟨isVec_uuid, by intro l h; cases h⟩, noSemi_names _ (by simp)⟩

theorem good_uConds (s : Option Nat) : ∀ c ∈ (uConds s : List (Cond (Cell Y))), GoodEq c := by
  cases s with
  | none => simp [uConds]
  | some u =>
    simp only [uConds, List.mem_singleton, forall_eq]
    exact ⟨noSemi_names _ (by simp), noSemi_names _ (by simp), _, rfl, .inl ⟨isVec_uuid, by intro l h; cases h⟩, noSemi_names _ (by simp)⟩

theorem good_eConds {a : Text} (ha : NoSemi a) (p : Option (Nat × Text)) : ∀ c ∈ (eConds a p : List (Cond (Cell Y))), GoodEq c := by
  cases p with
  | none => simp [eConds]
  | some e =>
    simp only [eConds, List.mem_cons, List.not_mem_nil, or_false, forall_eq_or_imp, forall_eq]
    exact ⟨⟨ha, noSemi_names _ (by simp), _, rfl, .inl ⟨isVec_int, by intro l h; cases h⟩, noSemi_names _ (by simp)⟩,
      ha, noSemi_names _ (by simp), _, rfl, .inl ⟨isVec_str, by intro l h; cases h⟩, noSemi_names _ (by simp)⟩

theorem fits_cell {v : Dat Y} {dt : Text} (h : v.Fits dt) : FitsType v.cell dt := by
  cases v with
  | one y => exact .inl ⟨h, by intro l h; cases h⟩
  | many l =>
    obtain ⟨e, sh, rfl, he, hs, hl⟩ := h
    exact .inr ⟨e, sh, l, rfl, he, hs, rfl, hl⟩

theorem good_vConds {t odt : Text} (ht : NoSemi t) (hd : NoSemi odt) {o : Option (Dat Y)} (ho : ∀ v, o = some v → v.Fits odt) : ∀ c ∈ vConds t odt o, GoodEq c := by
  cases o with
  | none => simp [vConds]
  | some v =>
    simp only [vConds, List.mem_singleton, forall_eq]
    exact ⟨ht, noSemi_names _ (by simp), _, rfl, fits_cell (ho v rfl), hd⟩

theorem means_sConds (row : Text → Text → Cell Y) (s : Option Nat) (u : Nat) (h : row "ts".toList "uid".toList = .uid u) :
    (∀ c ∈ (sConds s : List (Cond (Cell Y))), Means row c) ↔ Tables.eqC s u = true := by
  cases s with
  | none => simp [sConds, Tables.eqC]
  | some w => simp [sConds, Tables.eqC, Means]; rw [show row ['t', 's'] ['u', 'i', 'd'] = .uid u from h]; simp

theorem means_uConds (row : Text → Text → Cell Y) (s : Option Nat) (u : Nat) (h : row "to".toList "uid".toList = .uid u) :
    (∀ c ∈ (uConds s : List (Cond (Cell Y))), Means row c) ↔ Tables.eqC s u = true := by
  cases s with
  | none => simp [uConds, Tables.eqC]
  | some w => simp [uConds, Tables.eqC, Means]; rw [show row ['t', 'o'] ['u', 'i', 'd'] = .uid u from h]; simp

theorem means_eConds (row : Text → Text → Cell Y) {a : Text} (p : Option (Nat × Text)) (e : Nat × Text) (h : row a "ns_idx".toList = .idx e.1) (h' : row a "name".toList = .txt e.2) :
    (∀ c ∈ (eConds a p : List (Cond (Cell Y))), Means row c) ↔ Tables.eqC p e = true := by
  cases p with
  | none => simp [eConds, Tables.eqC]
  | some w =>
    simp only [eConds, List.mem_cons, List.not_mem_nil, or_false, forall_eq_or_imp, forall_eq, Means, h, h', Tables.eqC, decide_eq_true_eq, Cell.idx.injEq, Cell.txt.injEq]
    obtain ⟨a, b⟩ := w
    obtain ⟨c, d⟩ := e
    simp

theorem elemCol_get : ∀ (l : List Y) (k i : Nat), elemCol ("o___".toList ++ dec (k + i)) k l = match l[i]? with | some y => .val y | none => .null
  | [], _, _ => rfl
  | y :: l, k, 0 => by
    rw [elemCol, if_pos (by rw [Nat.add_zero])]; rfl
  | y :: l, k, i + 1 => by
    rw [elemCol, if_neg, show k + (i + 1) = k + 1 + i by omega, elemCol_get l (k + 1) i]
    · rfl
    · intro e
      have := dec_injective (List.append_cancel_left e)
      omega

theorem elem_not_key (k : Nat) : "o___".toList ++ dec k ≠ "s".toList ∧ "o___".toList ++ dec k ≠ "p".toList := by
  constructor <;> simp

theorem dataRow_elem (r : Nat × Nat × Dat Y) {l : List Y} (h : r.2.2 = .many l) (k : Nat) : dataRow r ("o___".toList ++ dec k) = match l[k]? with | some y => .val y | none => .null := by
  unfold dataRow
  rw [if_neg (elem_not_key k).1, if_neg (elem_not_key k).2, h]
  have := elemCol_get l 0 k
  rw [Nat.zero_add] at this
  exact this

theorem dataRow_one (r : Nat × Nat × Dat Y) {y : Y} (h : r.2.2 = .one y) : dataRow r "o".toList = .val y := by
  unfold dataRow
  rw [h]
  simp

theorem vecIri_size {e e' : Text} {sh sh' : List Nat} (he : e ∈ ymlNames) (he' : e' ∈ ymlNames) (hs : sh ≠ []) (hs' : sh' ≠ []) (h : vecIri e sh = vecIri e' sh') : shapeSize sh = shapeSize sh' := by
  have h1 := vector_iri_roundtrip e he sh hs
  have h2 := vector_iri_roundtrip e' he' sh' hs'
  rw [h, h2] at h1
  have := Except.ok.inj h1
  rw [(Prod.mk.inj this).2]

theorem means_vConds [DecidableEq Y] (row : Text → Text → Cell Y) {t odt : Text} (o : Option (Dat Y)) (r : Nat × Nat × Dat Y) (ho : ∀ v, o = some v → v.Fits odt) (hr : r.2.2.Fits odt)
    (h : ∀ c, row t c = dataRow r c) : (∀ c ∈ vConds t odt o, Means row c) ↔ Tables.eqC o r.2.2 = true := by
  cases o with
  | none => simp [vConds, Tables.eqC]
  | some w =>
    have hw := ho w rfl
    simp only [vConds, List.mem_singleton, forall_eq, Tables.eqC, decide_eq_true_eq]
    cases w with
    | one y =>
      cases hd : r.2.2 with
      | one y' =>
        simp only [Dat.cell, Means]
        rw [h, dataRow_one r hd]
        simp
      | many l =>
        rw [hd] at hr
        obtain ⟨e, sh, rfl, -⟩ := hr
        rw [Dat.Fits, isVec_vecIri] at hw
        cases hw
    | many l =>
      cases hd : r.2.2 with
      | one y' =>
        rw [hd, Dat.Fits] at hr
        obtain ⟨e, sh, rfl, -⟩ := hw
        rw [isVec_vecIri] at hr
        cases hr
      | many l' =>
        rw [hd] at hr
        obtain ⟨e, sh, rfl, he, hs, hl⟩ := hw
        obtain ⟨e', sh', heq, he', hs', hl'⟩ := hr
        have hlen : l.length = l'.length := by rw [hl, hl', vecIri_size he he' hs hs' heq]
        simp only [Dat.cell, Means]
        constructor
        · rintro ⟨-, hm⟩
          congr 1
          apply List.ext_getElem? 
          intro k
          by_cases hk : k < l.length
          · have h1 := List.getElem?_eq_getElem hk
            have h2 : l'[k]? = some (l'[k]'(by omega)) := List.getElem?_eq_getElem (by omega)
            have := hm k _ h1
            rw [h, show "o".toList ++ "___".toList ++ dec k = "o___".toList ++ dec k from rfl, dataRow_elem r hd, h2] at this
            rw [h1, h2]
            exact congrArg some (Cell.val.inj this)
          · rw [List.getElem?_eq_none (by omega), List.getElem?_eq_none (by omega)]
        · intro e
          cases e
          refine ⟨⟨_, rfl, isVec_vecIri _ _⟩, fun k y hk => ?_⟩
          rw [h, show "o".toList ++ "___".toList ++ dec k = "o___".toList ++ dec k from rfl, dataRow_elem r hd, hk]

/-! ### the statements -/

/-- One more table in a combination. Proof device; nothing in /repo. -/
def ext (a : Text) (r : Row Y) (e : Text → Text → Cell Y) : Text → Text → Cell Y := fun x c => if x = a then r c else e x c

theorem comb_flatMap {β : Type} (db : Base Y) (a t : Text) (rest : List (Text × Text)) (g : (Text → Text → Cell Y) → List β) :
    (combinations db ((a, t) :: rest)).flatMap g = (db t).flatMap (fun r => (combinations db rest).flatMap (fun e => g (ext a r e))) := by
  rw [combinations, List.flatMap_assoc]
  congr 1
  funext r
  rw [List.flatMap_map]
  rfl

theorem comb_nil {β : Type} (db : Base Y) (g : (Text → Text → Cell Y) → List β) : (combinations db []).flatMap g = g (fun _ _ => .null) := by
  simp [combinations]

theorem ext_same (a : Text) (r : Row Y) (e : Text → Text → Cell Y) (c : Text) : ext a r e a c = r c := if_pos rfl
theorem ext_other {a x : Text} (h : x ≠ a) (r : Row Y) (e : Text → Text → Cell Y) (c : Text) : ext a r e x c = e x c := if_neg h

theorem cudsRow_idx (r : Nat × Nat) : (cudsRow r : Row Y) "cuds_idx".toList = .idx r.1 := by simp [cudsRow]
theorem cudsRow_uid (r : Nat × Nat) : (cudsRow r : Row Y) "uid".toList = .uid r.2 := by simp [cudsRow]
theorem entRow_idx (r : Nat × (Nat × Text)) : (entRow r : Row Y) "entity_idx".toList = .idx r.1 := by simp [entRow]
theorem entRow_ns (r : Nat × (Nat × Text)) : (entRow r : Row Y) "ns_idx".toList = .idx r.2.1 := by simp [entRow]
theorem entRow_name (r : Nat × (Nat × Text)) : (entRow r : Row Y) "name".toList = .txt r.2.2 := by simp [entRow]
theorem typeRow_s (r : Nat × Nat) : (typeRow r : Row Y) "s".toList = .idx r.1 := by simp [typeRow]
theorem typeRow_o (r : Nat × Nat) : (typeRow r : Row Y) "o".toList = .idx r.2 := by simp [typeRow]
theorem relRow_s (r : Nat × Nat × Nat) : (relRow r : Row Y) "s".toList = .idx r.1 := by simp [relRow]
theorem relRow_p (r : Nat × Nat × Nat) : (relRow r : Row Y) "p".toList = .idx r.2.1 := by simp [relRow]
theorem relRow_o (r : Nat × Nat × Nat) : (relRow r : Row Y) "o".toList = .idx r.2.2 := by simp [relRow]
theorem dataRow_s (r : Nat × Nat × Dat Y) : dataRow r "s".toList = .idx r.1 := by simp [dataRow]
theorem dataRow_p (r : Nat × Nat × Dat Y) : dataRow r "p".toList = .idx r.2.1 := by simp [dataRow]

theorem cleanDts_cuds : CleanDts cudsDts := by
  intro e he
  simp only [cudsDts, List.mem_cons, List.not_mem_nil, or_false] at he
  rcases he with rfl | rfl
  · exact ⟨noSemi_names _ (by simp), fun i h => by cases h; exact noSemi_names _ (by simp)⟩
  · exact ⟨noSemi_names _ (by simp), fun i h => by cases h; exact noSemi_names _ (by simp)⟩

theorem cleanDts_ents : CleanDts entitiesDts := by
  intro e he
  simp only [entitiesDts, List.mem_cons, List.not_mem_nil, or_false] at he
  rcases he with rfl | rfl | rfl
  · exact ⟨noSemi_names _ (by simp), fun i h => by cases h; exact noSemi_names _ (by simp)⟩
  · exact ⟨noSemi_names _ (by simp), fun i h => by cases h; exact noSemi_names _ (by simp)⟩
  · exact ⟨noSemi_names _ (by simp), fun i h => by cases h; exact noSemi_names _ (by simp)⟩

theorem cuds_cols : ∀ c ∈ ["uid".toList], NoSemi c ∧ ∃ i, cudsDts.lookup c = some (some i) ∧ GoodDt i ∧ NoSemi i := by
  intro c hc
  cases List.mem_singleton.1 hc
  exact ⟨noSemi_names _ (by simp), "UUID".toList, by decide, .inl isVec_uuid, noSemi_names _ (by simp)⟩

theorem ents_cols : ∀ c ∈ ["ns_idx".toList, "name".toList], NoSemi c ∧ ∃ i, entitiesDts.lookup c = some (some i) ∧ GoodDt i ∧ NoSemi i := by
  intro c hc
  simp only [List.mem_cons, List.not_mem_nil, or_false] at hc
  rcases hc with rfl | rfl
  · exact ⟨noSemi_names _ (by simp), xsdInteger, by decide +kernel, .inl isVec_int, noSemi_names _ (by simp)⟩
  · exact ⟨noSemi_names _ (by simp), xsdString, by decide +kernel, .inl isVec_str, noSemi_names _ (by simp)⟩

theorem cuds_colsOf : ["uid".toList].flatMap (fun c => colsOf c ((cudsDts.lookup c).join.getD [])) = ["uid".toList] := by decide +kernel
theorem ents_colsOf : ["ns_idx".toList, "name".toList].flatMap (fun c => colsOf c ((entitiesDts.lookup c).join.getD [])) = ["ns_idx".toList, "name".toList] := by decide +kernel

theorem built_types (S : PySet (Cell Y)) (s : Option Nat) (p o : Option (Nat × Text)) (odt : Text) :
    ∃ q : Query Y, constructQuery S s p (o.map (fun e => .ent e.1 e.2)) typesTable odt = .ok q ∧
      Built q [("ts".toList, cudsTable), ("to".toList, entitiesTable), (typesTable, typesTable)]
        [("ts".toList, ["uid".toList]), ("to".toList, ["ns_idx".toList, "name".toList]), (typesTable, [])] 5
        (fun row => row typesTable "s".toList = row "ts".toList "cuds_idx".toList ∧ row typesTable "o".toList = row "to".toList "entity_idx".toList ∧
          ∀ c ∈ (sConds s ++ eConds "to".toList o : List (Cond (Cell Y))), Means row c) := by
  have ns := noSemi_names
  obtain ⟨q1, e1, b1⟩ := built_new (Y := Y) (table := cudsTable) (a := "ts".toList) (columns := ["uid".toList]) (dts := cudsDts) (by simp) (ns _ (by simp)) (ns _ (by simp)) cleanDts_cuds cuds_cols
  obtain ⟨q2, e2, b2⟩ := built_where_join (S := S) b1 (t1 := typesTable) (c1 := "s".toList) (t2 := "ts".toList) (c2 := "cuds_idx".toList) (ns _ (by simp)) (ns _ (by simp)) (ns _ (by simp)) (ns _ (by simp))
  obtain ⟨q3, e3, b3⟩ := built_join b2 (table := entitiesTable) (alias := some "to".toList) (columns := ["ns_idx".toList, "name".toList]) (dts := entitiesDts) (ns _ (by simp)) (ns _ (by simp [aliasOr])) cleanDts_ents ents_cols
    (by decide)
  obtain ⟨q4, e4, b4⟩ := built_where_join (S := S) b3 (t1 := typesTable) (c1 := "o".toList) (t2 := "to".toList) (c2 := "entity_idx".toList) (ns _ (by simp)) (ns _ (by simp)) (ns _ (by simp)) (ns _ (by simp))
  obtain ⟨q5, e5, b5⟩ := built_join b4 (table := typesTable) (alias := none) (columns := []) (dts := []) (ns _ (by simp)) (ns _ (by simp [aliasOr])) (by intro e he; cases he) (by simp)
    (by decide +kernel)
  obtain ⟨d, e6, hl, hp, hs, hm⟩ := expand_flat S (cs := sConds s ++ eConds "to".toList o) (by
    intro c hc
    rcases List.mem_append.1 hc with hc | hc
    · exact good_sConds s c hc
    · exact good_eConds (ns _ (by simp)) o c hc)
  have hlen : (sConds s ++ eConds "to".toList o : List (Cond (Cell Y))).length ≤ 3 := by
    cases s <;> cases o <;> simp [sConds, eConds]
  obtain ⟨q6, e7, b6⟩ := built_where b5 e6 hs (m := 3) (Nat.le_trans hl hlen) hp
  refine ⟨q6, ?_, ?_⟩
  · have h1 : ¬ typesTable = relsTable := by decide
    have h2 : tablePrefix.isPrefixOf typesTable = false := by decide
    unfold constructQuery
    simp only [e1, e2, bind, Except.bind, ne_eq, not_true_eq_false, if_false, e3, e4, h1, h2, Bool.false_eq_true, e5, getConditions_types, e7]
  · rw [cuds_colsOf, ents_colsOf] at b6
    refine ⟨b6.order, b6.tables, b6.cols, b6.len, b6.plain, fun row => ?_⟩
    rw [b6.holds, hm]
    simp only [true_and, and_assoc]

theorem built_rels (S : PySet (Cell Y)) (s : Option Nat) (p : Option (Nat × Text)) (o : Option Nat) (odt : Text) :
    ∃ q : Query Y, constructQuery S s p (o.map (fun u => .cuds u)) relsTable odt = .ok q ∧
      Built q [("ts".toList, cudsTable), ("tp".toList, entitiesTable), ("to".toList, cudsTable), (relsTable, relsTable)]
        [("ts".toList, ["uid".toList]), ("tp".toList, ["ns_idx".toList, "name".toList]), ("to".toList, ["uid".toList]), (relsTable, [])] 7
        (fun row => row relsTable "s".toList = row "ts".toList "cuds_idx".toList ∧ row relsTable "p".toList = row "tp".toList "entity_idx".toList ∧
          row relsTable "o".toList = row "to".toList "cuds_idx".toList ∧
          ∀ c ∈ (sConds s ++ eConds "tp".toList p ++ uConds o : List (Cond (Cell Y))), Means row c) := by
  have ns := noSemi_names
  obtain ⟨q1, e1, b1⟩ := built_new (Y := Y) (table := cudsTable) (a := "ts".toList) (columns := ["uid".toList]) (dts := cudsDts) (by simp) (ns _ (by simp)) (ns _ (by simp)) cleanDts_cuds cuds_cols
  obtain ⟨q2, e2, b2⟩ := built_where_join (S := S) b1 (t1 := relsTable) (c1 := "s".toList) (t2 := "ts".toList) (c2 := "cuds_idx".toList) (ns _ (by simp)) (ns _ (by simp)) (ns _ (by simp)) (ns _ (by simp))
  obtain ⟨q3, e3, b3⟩ := built_join b2 (table := entitiesTable) (alias := some "tp".toList) (columns := ["ns_idx".toList, "name".toList]) (dts := entitiesDts) (ns _ (by simp)) (ns _ (by simp [aliasOr])) cleanDts_ents ents_cols
    (by decide)
  obtain ⟨q4, e4, b4⟩ := built_where_join (S := S) b3 (t1 := relsTable) (c1 := "p".toList) (t2 := "tp".toList) (c2 := "entity_idx".toList) (ns _ (by simp)) (ns _ (by simp)) (ns _ (by simp)) (ns _ (by simp))
  obtain ⟨q5, e5, b5⟩ := built_join b4 (table := cudsTable) (alias := some "to".toList) (columns := ["uid".toList]) (dts := cudsDts) (ns _ (by simp)) (ns _ (by simp [aliasOr])) cleanDts_cuds cuds_cols
    (by decide)
  obtain ⟨q6, e6, b6⟩ := built_where_join (S := S) b5 (t1 := relsTable) (c1 := "o".toList) (t2 := "to".toList) (c2 := "cuds_idx".toList) (ns _ (by simp)) (ns _ (by simp)) (ns _ (by simp)) (ns _ (by simp))
  obtain ⟨q7, e7, b7⟩ := built_join b6 (table := relsTable) (alias := none) (columns := []) (dts := []) (ns _ (by simp)) (ns _ (by simp [aliasOr])) (by intro e he; cases he) (by simp)
    (by decide +kernel)
  obtain ⟨d, e8, hl, hp, hs, hm⟩ := expand_flat S (cs := sConds s ++ eConds "tp".toList p ++ uConds o) (by
    intro c hc
    rcases List.mem_append.1 hc with hc | hc
    · rcases List.mem_append.1 hc with hc | hc
      · exact good_sConds s c hc
      · exact good_eConds (ns _ (by simp)) p c hc
    · exact good_uConds o c hc)
  have hlen : (sConds s ++ eConds "tp".toList p ++ uConds o : List (Cond (Cell Y))).length ≤ 4 := by
    cases s <;> cases o <;> cases p <;> simp [sConds, eConds, uConds]
  obtain ⟨q8, e9, b8⟩ := built_where b7 e8 hs (m := 4) (Nat.le_trans hl hlen) hp
  refine ⟨q8, ?_, ?_⟩
  · have h1 : ¬ relsTable = typesTable := by decide
    have h2 : tablePrefix.isPrefixOf relsTable = false := by decide
    unfold constructQuery
    simp only [e1, e2, bind, Except.bind, ne_eq, h1, not_false_eq_true, if_true, e3, e4, e5, e6, h2, Bool.false_eq_true, if_false, e7, getConditions_rels, e9]
  · rw [cuds_colsOf, ents_colsOf] at b8
    refine ⟨b8.order, b8.tables, b8.cols, b8.len, b8.plain, fun row => ?_⟩
    rw [b8.holds, hm]
    simp only [true_and, and_assoc]

theorem fits_good {v : Dat Y} {d : Text} (h : v.Fits d) : GoodDt d := by
  cases v with
  | one y => exact .inl h
  | many l =>
    obtain ⟨e, sh, rfl, he, hs, -⟩ := h
    exact .inr ⟨e, sh, rfl, he, hs⟩

theorem built_data (S : PySet (Cell Y)) (s : Option Nat) (p : Option (Nat × Text)) (o : Option (Dat Y)) {t odt : Text} (ht : tablePrefix.isPrefixOf t = true) (hns : NoSemi t)
    (hd : NoSemi odt) (hg : GoodDt odt) (ho : ∀ v, o = some v → v.Fits odt) :
    ∃ q : Query Y, constructQuery S s p (o.map (fun v => .lit v)) t odt = .ok q ∧
      Built q [("ts".toList, cudsTable), ("tp".toList, entitiesTable), (t, t)]
        [("ts".toList, ["uid".toList]), ("tp".toList, ["ns_idx".toList, "name".toList]), (t, colsOf "o".toList odt)] 6
        (fun row => row t "s".toList = row "ts".toList "cuds_idx".toList ∧ row t "p".toList = row "tp".toList "entity_idx".toList ∧
          ∀ c ∈ (sConds s ++ eConds "tp".toList p ++ vConds t odt o : List (Cond (Cell Y))), Means row c) := by
  have ns := noSemi_names
  have hne : ∀ x : Text, tablePrefix.isPrefixOf x = false → x ≠ t := by
    rintro x hx rfl
    rw [ht] at hx; cases hx
  obtain ⟨q1, e1, b1⟩ := built_new (Y := Y) (table := cudsTable) (a := "ts".toList) (columns := ["uid".toList]) (dts := cudsDts) (by simp) (ns _ (by simp)) (ns _ (by simp)) cleanDts_cuds cuds_cols
  obtain ⟨q2, e2, b2⟩ := built_where_join (S := S) b1 (t1 := t) (c1 := "s".toList) (t2 := "ts".toList) (c2 := "cuds_idx".toList) hns (ns _ (by simp)) (ns _ (by simp)) (ns _ (by simp))
  obtain ⟨q3, e3, b3⟩ := built_join b2 (table := entitiesTable) (alias := some "tp".toList) (columns := ["ns_idx".toList, "name".toList]) (dts := entitiesDts) (ns _ (by simp)) (ns _ (by simp [aliasOr])) cleanDts_ents ents_cols
    (by decide)
  obtain ⟨q4, e4, b4⟩ := built_where_join (S := S) b3 (t1 := t) (c1 := "p".toList) (t2 := "tp".toList) (c2 := "entity_idx".toList) hns (ns _ (by simp)) (ns _ (by simp)) (ns _ (by simp))
  obtain ⟨q5, e5, b5⟩ := built_join b4 (table := t) (alias := none) (columns := ["o".toList]) (dts := [("o".toList, some odt)]) hns hns
    (by
      intro e he
      cases List.mem_singleton.1 he
      exact ⟨ns _ (by simp), fun i h => by cases h; exact hd⟩)
    (by
      intro c hc
      cases List.mem_singleton.1 hc
      exact ⟨ns _ (by simp), odt, by simp [List.lookup], hg, hd⟩)
    (by
      intro e he
      simp only [List.cons_append, List.nil_append, List.mem_cons, List.not_mem_nil, or_false] at he
      rcases he with rfl | rfl
      · exact hne _ (by decide)
      · exact hne _ (by decide))
  obtain ⟨d, e8, hl, hp, hs, hm⟩ := expand_flat S (cs := sConds s ++ eConds "tp".toList p ++ vConds t odt o) (by
    intro c hc
    rcases List.mem_append.1 hc with hc | hc
    · rcases List.mem_append.1 hc with hc | hc
      · exact good_sConds s c hc
      · exact good_eConds (ns _ (by simp)) p c hc
    · exact good_vConds hns hd ho c hc)
  have hlen : (sConds s ++ eConds "tp".toList p ++ vConds t odt o : List (Cond (Cell Y))).length ≤ 4 := by
    cases s <;> cases o <;> cases p <;> simp [sConds, eConds, vConds]
  obtain ⟨q8, e9, b8⟩ := built_where b5 e8 hs (m := 4) (Nat.le_trans hl hlen) hp
  refine ⟨q8, ?_, ?_⟩
  · have h1 : ¬ t = typesTable := fun e => hne typesTable (by decide) e.symm
    have h2 : ¬ t = relsTable := fun e => hne relsTable (by decide) e.symm
    unfold constructQuery
    simp only [e1, e2, bind, Except.bind, ne_eq, h1, not_false_eq_true, if_true, e3, e4, h2, ht, if_false, e5, getConditions_data S s p o h1 h2, e9]
  · have hc : ["o".toList].flatMap (fun c => colsOf c ((([("o".toList, some odt)] : Dts).lookup c).join.getD [])) = colsOf "o".toList odt := by
      simp [List.lookup]
    rw [cuds_colsOf, ents_colsOf, hc] at b8
    refine ⟨b8.order, b8.tables, b8.cols, b8.len, b8.plain, fun row => ?_⟩
    rw [b8.holds, hm]
    simp only [true_and, and_assoc]

end Osp.Stmt
