import Verif.Stmt.Refine
/-!
# SQL statements of the triple store: main theorems (C89)
-/
namespace Osp.Stmt
open Osp.Sql

variable {Y : Type}

theorem columns_eq {q : Query Y} {ts : List (Text × Text)} {cs : List (Text × List Text)} {n : Nat} {P : (Text → Text → Cell Y) → Prop} (h : Built q ts cs n P) :
    q.columns = (ts.map Prod.fst).flatMap (fun a => ((cs.lookup a).getD []).map (fun c => (a, c))) := by
  unfold Query.columns
  rw [h.order, h.cols]

/-- The rows of the statement of a query that is built, as nested loops over the tables. -/
theorem built_rows [DecidableEq Y] {q : Query Y} {ts : List (Text × Text)} {cs : List (Text × List Text)} {n : Nat} {P : (Text → Text → Cell Y) → Prop} (h : Built q ts cs n P) (hn : n ≤ 10)
    (db : Base Y) : ∃ s : Select, (dbSelect q).1 = s.render ∧
      s.eval (dbSelect q).2 db = (combinations db ts).flatMap (fun e => if @decide (P e) (Classical.propDecidable _) then [q.columns.map (fun x => e x.1 x.2)] else []) := by
  obtain ⟨s, e, hs⟩ := select_rows q (h.isPlain hn) db (fun row => @decide (P row) (Classical.propDecidable _)) (by
    intro row _
    rw [h.holds]
    exact @decide_eq_true_iff _ (Classical.propDecidable _))
  refine ⟨s, e, ?_⟩
  rw [hs, filter_map_eq, h.tables]

theorem ite_congr_iff {β : Type} {P Q : Prop} [dQ : Decidable Q] (h : P ↔ Q) {x y : List β} (hxy : Q → x = y) :
    (if @decide P (Classical.propDecidable _) then x else []) = (if Q then y else []) := by
  by_cases hq : Q
  · rw [if_pos hq, if_pos (@decide_eq_true _ (Classical.propDecidable _) (h.2 hq)), hxy hq]
  · rw [if_neg hq, if_neg]
    intro hd
    exact hq (h.1 (@of_decide_eq_true _ (Classical.propDecidable _) hd))

/-- **C89.** Asking for types: the SELECT statement the library builds returns, in some order, exactly one row for every row of the table of types whose subject and class meet the pattern,
with the uid of the subject and the namespace and name of the class. -/
theorem select_types [DecidableEq Y] (S : PySet (Cell Y)) (db : Base Y) (D : Tables.Db Text (Dat Y)) (hD : Encodes db D) (s : Option Nat) (p o : Option (Nat × Text)) (odt : Text) :
    ∃ (q : Query Y) (stmt : Select), constructQuery S s p (o.map (fun e => .ent e.1 e.2)) typesTable odt = .ok q ∧ (dbSelect q).1 = stmt.render ∧
      (stmt.eval (dbSelect q).2 db).Perm ((Tables.selectTypes D ⟨s, none, none, o, none⟩).map rowCells) := by
  obtain ⟨q, e, hb⟩ := built_types S s p o odt
  obtain ⟨stmt, e2, hr⟩ := built_rows hb (by decide) db
  refine ⟨q, stmt, e, e2, ?_⟩
  have hcols : q.columns = [("ts".toList, "uid".toList), ("to".toList, "ns_idx".toList), ("to".toList, "name".toList)] := by
    rw [columns_eq hb]; decide
  have d1 : cudsTable = "OSP_V1_CUDS".toList := rfl
  have d2 : entitiesTable = "OSP_V1_ENTITIES".toList := rfl
  have d3 : typesTable = "OSP_V1_TYPES".toList := rfl
  rw [hr]
  simp only [comb_flatMap, comb_nil]
  rw [d1, d2, d3, hD.cuds, hD.ents, hD.types, ← d3]
  simp only [List.flatMap_map]
  have key : ∀ (a : Nat × Nat) (x : Nat × (Nat × Text)) (r : Nat × Nat),
      ∀ env, env = ext "ts".toList (cudsRow a) (ext "to".toList (entRow x) (ext typesTable (typeRow r) (fun _ _ => (.null : Cell Y)))) →
       (if @decide (env typesTable "s".toList = env "ts".toList "cuds_idx".toList ∧ env typesTable "o".toList = env "to".toList "entity_idx".toList ∧
          ∀ c ∈ (sConds s ++ eConds "to".toList o : List (Cond (Cell Y))), Means env c) (Classical.propDecidable _) then [q.columns.map (fun x => env x.1 x.2)] else []) =
      (if r.1 = a.1 ∧ r.2 = x.1 ∧ Tables.eqC s a.2 ∧ Tables.eqC o x.2 then [rowCells (Y := Y) ⟨a.2, x.2.1, x.2.2, none, none⟩] else []) := by
    intro a x r
    rintro env rfl
    generalize henv : ext "ts".toList _ _ = env
    have h1 : ∀ c, env "ts".toList c = cudsRow a c := fun c => by rw [← henv]; exact ext_same _ _ _ c
    have h2 : ∀ c, env "to".toList c = entRow x c := fun c => by rw [← henv]; exact (ext_other (by decide) _ _ c).trans (ext_same _ _ _ c)
    have h3 : ∀ c, env typesTable c = typeRow r c := fun c => by rw [← henv]; exact (ext_other (by decide) _ _ c).trans ((ext_other (by decide) _ _ c).trans (ext_same _ _ _ c))
    apply ite_congr_iff
    · rw [h1, h2, h3, h3, typeRow_s, typeRow_o, cudsRow_idx, entRow_idx, Cell.idx.injEq, Cell.idx.injEq, List.forall_mem_append,
        means_sConds env s a.2 (by rw [h1, cudsRow_uid]), means_eConds env o x.2 (by rw [h2, entRow_ns]) (by rw [h2, entRow_name])]
    · intro _
      rw [hcols]
      simp only [List.map_cons, List.map_nil, h1, h2, cudsRow_uid, entRow_ns, entRow_name]
      rfl
  simp only [key _ _ _ _ rfl]
  unfold Tables.selectTypes
  simp only [List.map_flatMap]
  have hite : ∀ (P : Prop) [Decidable P] (r : Tables.Row (Dat Y)), (if P then [r] else []).map rowCells = if P then [rowCells r] else [] := by
    intro P _ r
    split <;> rfl
  simp only [hite]
  refine (perm_flatMap_congr (fun a _ => perm_flatMap_comm D.ents D.types _)).trans ?_
  exact perm_flatMap_comm D.cuds D.types _

/-- **C89.** Asking for relationships: one row for every row of the table of relationships that meets the pattern, with the uids and the namespace and name of the relationship. -/
theorem select_rels [DecidableEq Y] (S : PySet (Cell Y)) (db : Base Y) (D : Tables.Db Text (Dat Y)) (hD : Encodes db D) (s : Option Nat) (p : Option (Nat × Text)) (o : Option Nat) (odt : Text) :
    ∃ (q : Query Y) (stmt : Select), constructQuery S s p (o.map (fun u => .cuds u)) relsTable odt = .ok q ∧ (dbSelect q).1 = stmt.render ∧
      (stmt.eval (dbSelect q).2 db).Perm ((Tables.selectRels D ⟨s, p, o, none, none⟩).map rowCells) := by
  obtain ⟨q, e, hb⟩ := built_rels S s p o odt
  obtain ⟨stmt, e2, hr⟩ := built_rows hb (by decide) db
  refine ⟨q, stmt, e, e2, ?_⟩
  have hcols : q.columns = [("ts".toList, "uid".toList), ("tp".toList, "ns_idx".toList), ("tp".toList, "name".toList), ("to".toList, "uid".toList)] := by
    rw [columns_eq hb]; decide
  have d1 : cudsTable = "OSP_V1_CUDS".toList := rfl
  have d2 : entitiesTable = "OSP_V1_ENTITIES".toList := rfl
  have d3 : relsTable = "OSP_V1_RELATIONS".toList := rfl
  rw [hr]
  simp only [comb_flatMap, comb_nil]
  rw [d1, d2, d3, hD.cuds, hD.ents, hD.rels, ← d3]
  simp only [List.flatMap_map]
  have key : ∀ (a : Nat × Nat) (x : Nat × (Nat × Text)) (b : Nat × Nat) (r : Nat × Nat × Nat),
      ∀ env, env = ext "ts".toList (cudsRow a) (ext "tp".toList (entRow x) (ext "to".toList (cudsRow b) (ext relsTable (relRow r) (fun _ _ => (.null : Cell Y))))) →
       (if @decide (env relsTable "s".toList = env "ts".toList "cuds_idx".toList ∧ env relsTable "p".toList = env "tp".toList "entity_idx".toList ∧
          env relsTable "o".toList = env "to".toList "cuds_idx".toList ∧
          ∀ c ∈ (sConds s ++ eConds "tp".toList p ++ uConds o : List (Cond (Cell Y))), Means env c) (Classical.propDecidable _) then [q.columns.map (fun x => env x.1 x.2)] else []) =
      (if r.1 = a.1 ∧ r.2.1 = x.1 ∧ r.2.2 = b.1 ∧ Tables.eqC s a.2 ∧ Tables.eqC p x.2 ∧ Tables.eqC o b.2 then [rowCells (Y := Y) ⟨a.2, x.2.1, x.2.2, some b.2, none⟩] else []) := by
    intro a x b r
    rintro env rfl
    generalize henv : ext "ts".toList _ _ = env
    have h1 : ∀ c, env "ts".toList c = cudsRow a c := fun c => by rw [← henv]; exact ext_same _ _ _ c
    have h2 : ∀ c, env "tp".toList c = entRow x c := fun c => by rw [← henv]; exact (ext_other (by decide) _ _ c).trans (ext_same _ _ _ c)
    have h4 : ∀ c, env "to".toList c = cudsRow b c := fun c => by rw [← henv]; exact (ext_other (by decide) _ _ c).trans ((ext_other (by decide) _ _ c).trans (ext_same _ _ _ c))
    have h3 : ∀ c, env relsTable c = relRow r c := fun c => by rw [← henv]; exact (ext_other (by decide) _ _ c).trans ((ext_other (by decide) _ _ c).trans ((ext_other (by decide) _ _ c).trans (ext_same _ _ _ c)))
    apply ite_congr_iff
    · rw [h1, h2, h4, h3, h3, h3, relRow_s, relRow_p, relRow_o, cudsRow_idx, cudsRow_idx, entRow_idx, Cell.idx.injEq, Cell.idx.injEq, Cell.idx.injEq, List.forall_mem_append, List.forall_mem_append,
        means_sConds env s a.2 (by rw [h1, cudsRow_uid]), means_eConds env p x.2 (by rw [h2, entRow_ns]) (by rw [h2, entRow_name]), means_uConds env o b.2 (by rw [h4, cudsRow_uid]), and_assoc]
    · intro _
      rw [hcols]
      simp only [List.map_cons, List.map_nil, h1, h2, h4, cudsRow_uid, entRow_ns, entRow_name]
      rfl
  simp only [key _ _ _ _ _ rfl]
  unfold Tables.selectRels
  simp only [List.map_flatMap]
  have hite : ∀ (P : Prop) [Decidable P] (r : Tables.Row (Dat Y)), (if P then [r] else []).map rowCells = if P then [rowCells r] else [] := by
    intro P _ r
    split <;> rfl
  simp only [hite]
  refine (perm_flatMap_congr (fun a _ => perm_flatMap_congr (fun x _ => perm_flatMap_comm D.cuds D.rels _))).trans ?_
  refine (perm_flatMap_congr (fun a _ => perm_flatMap_comm D.ents D.rels _)).trans ?_
  exact perm_flatMap_comm D.cuds D.rels _

theorem table_prefix {d t : Text} (h : dataTableName d = .ok t) : tablePrefix.isPrefixOf t = true := by
  unfold dataTableName at h
  rw [List.isPrefixOf_iff_prefix]
  split at h
  · cases h; exact ⟨_, (List.append_assoc _ _ _).symm⟩
  · split at h
    · cases h; exact ⟨_, (List.append_assoc _ _ _).symm⟩
    · split at h
      · cases h; exact ⟨_, (List.append_assoc _ _ _).symm⟩
      · split at h
        · cases h; exact ⟨_, (List.append_assoc _ _ _).symm⟩
        · split at h
          · cases h; exact ⟨_, rfl⟩
          · cases h

theorem table_noSemi {d t : Text} (h : dataTableName d = .ok t) (hd : NoSemi d) : NoSemi t := by
  have hp : NoSemi tablePrefix := by unfold NoSemi; decide
  have h1 : ∀ n, NoSemi (d.drop n) := fun n hm => hd (List.mem_of_mem_drop hm)
  unfold dataTableName at h
  split at h
  · cases h; exact noSemi_append (noSemi_append hp (by unfold NoSemi; decide)) (h1 _)
  · split at h
    · cases h; exact noSemi_append (noSemi_append hp (by unfold NoSemi; decide)) (h1 _)
    · split at h
      · cases h; exact noSemi_append (noSemi_append hp (by unfold NoSemi; decide)) (h1 _)
      · split at h
        · cases h; exact noSemi_append (noSemi_append hp (by unfold NoSemi; decide)) (h1 _)
        · split at h
          · cases h; exact noSemi_append hp (h1 _)
          · cases h

theorem data_cells (r : Nat × Nat × Dat Y) {d : Text} (h : r.2.2.Fits d) : (colsOf "o".toList d).map (dataRow r) = r.2.2.cells := by
  cases hd : r.2.2 with
  | one y =>
    rw [hd] at h
    rw [colsOf_scalar h, Dat.cells, List.map_singleton, dataRow_one r hd]
  | many l =>
    rw [hd] at h
    obtain ⟨e, sh, rfl, he, hs, hl⟩ := h
    rw [colsOf_vec he hs, List.map_map, Dat.cells]
    apply List.ext_getElem
    · simp [hl]
    · intro i h1 h2
      rw [List.getElem_map, List.getElem_range, List.getElem_map]
      show dataRow r ("o___".toList ++ dec i) = _
      rw [dataRow_elem r hd, List.getElem?_eq_getElem (by simpa using h2)]

/-- **C89.** Asking for attributes of one datatype, scalar or vector: one row for every row of its table that meets the pattern, with the uid, the namespace and name of the attribute and
the value or, in order, all elements of the vector. -/
theorem select_data [DecidableEq Y] (S : PySet (Cell Y)) (db : Base Y) (D : Tables.Db Text (Dat Y)) (hD : Encodes db D) (s : Option Nat) (p : Option (Nat × Text)) (o : Option (Dat Y))
    {d t : Text} (hd : d ∈ D.dts) (ht : dataTableName d = .ok t) (hsemi : ';' ∉ d) (hg : isVec d = false ∨ ∃ e sh, d = vecIri e sh ∧ e ∈ ymlNames ∧ sh ≠ []) (ho : ∀ v, o = some v → v.Fits d) :
    ∃ (q : Query Y) (stmt : Select), constructQuery S s p (o.map (fun v => .lit v)) t d = .ok q ∧ (dbSelect q).1 = stmt.render ∧
      (stmt.eval (dbSelect q).2 db).Perm ((Tables.selectData D d ⟨s, p, none, none, o⟩).map rowCells) := by
  obtain ⟨q, e, hb⟩ := built_data S s p o (table_prefix ht) (table_noSemi ht hsemi) hsemi hg ho
  obtain ⟨stmt, e2, hr⟩ := built_rows hb (by decide) db
  refine ⟨q, stmt, e, e2, ?_⟩
  have hne : ∀ x : Text, tablePrefix.isPrefixOf x = false → t ≠ x := by
    rintro x hx rfl
    rw [table_prefix ht] at hx; cases hx
  have n1 : t ≠ "ts".toList := hne _ (by decide)
  have n2 : t ≠ "tp".toList := hne _ (by decide)
  have hcols : q.columns = [("ts".toList, "uid".toList), ("tp".toList, "ns_idx".toList), ("tp".toList, "name".toList)] ++ (colsOf "o".toList d).map (fun c => (t, c)) := by
    rw [columns_eq hb]
    have b1 : (t == "ts".toList) = false := beq_false_of_ne n1
    have b2 : (t == "tp".toList) = false := beq_false_of_ne n2
    have b3 : ("tp".toList == "ts".toList) = false := by decide
    simp only [List.map_cons, List.map_nil, List.flatMap_cons, List.flatMap_nil, List.lookup, b1, b2, b3, beq_self_eq_true, Option.getD_some, List.append_nil, List.cons_append, List.nil_append]
  have d1 : cudsTable = "OSP_V1_CUDS".toList := rfl
  have d2 : entitiesTable = "OSP_V1_ENTITIES".toList := rfl
  rw [hr]
  simp only [comb_flatMap, comb_nil]
  rw [d1, d2, hD.cuds, hD.ents, hD.data d hd t ht]
  simp only [List.flatMap_map]
  have key : ∀ (a : Nat × Nat) (x : Nat × (Nat × Text)) (r : Nat × Nat × Dat Y), r ∈ D.data d →
      ∀ env, env = ext "ts".toList (cudsRow a) (ext "tp".toList (entRow x) (ext t (dataRow r) (fun _ _ => (.null : Cell Y)))) →
       (if @decide (env t "s".toList = env "ts".toList "cuds_idx".toList ∧ env t "p".toList = env "tp".toList "entity_idx".toList ∧
          ∀ c ∈ (sConds s ++ eConds "tp".toList p ++ vConds t d o : List (Cond (Cell Y))), Means env c) (Classical.propDecidable _) then [q.columns.map (fun x => env x.1 x.2)] else []) =
      (if r.1 = a.1 ∧ r.2.1 = x.1 ∧ Tables.eqC s a.2 ∧ Tables.eqC p x.2 ∧ Tables.eqC o r.2.2 then [rowCells ⟨a.2, x.2.1, x.2.2, none, some r.2.2⟩] else []) := by
    intro a x r hmem
    rintro env rfl
    generalize henv : ext "ts".toList _ _ = env
    have h1 : ∀ c, env "ts".toList c = cudsRow a c := fun c => by rw [← henv]; exact ext_same _ _ _ c
    have h2 : ∀ c, env "tp".toList c = entRow x c := fun c => by rw [← henv]; exact (ext_other (by decide) _ _ c).trans (ext_same _ _ _ c)
    have h3 : ∀ c, env t c = dataRow r c := fun c => by rw [← henv]; exact (ext_other n1 _ _ c).trans ((ext_other n2 _ _ c).trans (ext_same _ _ _ c))
    have hf := hD.typed d hd r hmem
    apply ite_congr_iff
    · rw [h1, h2, h3, h3, dataRow_s, dataRow_p, cudsRow_idx, entRow_idx, Cell.idx.injEq, Cell.idx.injEq, List.forall_mem_append, List.forall_mem_append,
        means_sConds env s a.2 (by rw [h1, cudsRow_uid]), means_eConds env p x.2 (by rw [h2, entRow_ns]) (by rw [h2, entRow_name]), means_vConds env o r ho hf h3, and_assoc]
    · intro _
      rw [hcols, List.map_append]
      have : (List.map (fun c => (t, c)) (colsOf "o".toList d)).map (fun x => env x.1 x.2) = r.2.2.cells := by
        rw [List.map_map, ← data_cells r hf]
        exact List.map_congr_left (fun c _ => h3 c)
      rw [this]
      simp only [List.map_cons, List.map_nil, h1, h2, cudsRow_uid, entRow_ns, entRow_name]
      rfl
  unfold Tables.selectData
  simp only [List.map_flatMap]
  have hite : ∀ (P : Prop) [Decidable P] (r : Tables.Row (Dat Y)), (if P then [r] else []).map rowCells = if P then [rowCells r] else [] := by
    intro P _ r
    split <;> rfl
  simp only [hite]
  refine (perm_flatMap_congr (fun a _ => (perm_flatMap_congr (fun x _ => perm_flatMap_congr (fun r hr => ?_))).trans (perm_flatMap_comm D.ents (D.data d) _))).trans (perm_flatMap_comm D.cuds (D.data d) _)
  exact List.Perm.of_eq (key a x r hr _ rfl)

end Osp.Stmt
