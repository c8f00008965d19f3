import Verif.Stmt.Remove
/-!
# Lookups, insertions and clearing (C89)
-/
namespace Osp.Stmt
open Osp.Sql

variable {Y : Type}

/-! ### lookups -/

theorem flatMap_congr' {α β : Type} {l : List α} {f g : α → List β} (h : ∀ x ∈ l, f x = g x) : l.flatMap f = l.flatMap g := by
  induction l with
  | nil => rfl
  | cons x l ih => rw [List.flatMap_cons, List.flatMap_cons, h x List.mem_cons_self, ih (fun y hy => h y (List.mem_cons_of_mem _ hy))]

/-- The selection of one table. -/
theorem default_select [DecidableEq Y] (S : PySet (Cell Y)) {t : Text} (ht : NoSemi t) (hne : t ≠ []) {columns : List Text} {dts : Dts} (h0 : CleanDts dts)
    (hc : ∀ c ∈ columns, NoSemi c ∧ ∃ i, dts.lookup c = some (some i) ∧ isVec i = false ∧ NoSemi i) (c : Option (Cond (Cell Y)))
    (P : Row Y → Bool) (rows : List (Row Y)) (db : Base Y) (hdb : db t = rows)
    (hx : ∀ c', c = some c' → ∃ d, expandCond S c' = .ok d ∧ (top (some d)).length ≤ 10 ∧ (∀ x ∈ top (some d), x.plain = true) ∧ (∀ t, Inside t (.cond d) → NoSemi t) ∧
      ∀ r ∈ rows, ∀ row : Text → Text → Cell Y, (∀ c, row t c = r c) → (d.holds row ↔ P r = true))
    (hn : c = none → ∀ r ∈ rows, P r = true) :
    ∃ (q : Query Y) (stmt : Select), defaultSelect S t columns dts c = .ok q ∧ (dbSelect q).1 = stmt.render ∧
      stmt.eval (dbSelect q).2 db = (rows.filter P).map (fun r => columns.map r) := by
  obtain ⟨q1, e0, b1⟩ := built_new (Y := Y) (table := t) (a := t) (columns := columns) (dts := dts) hne ht ht h0
    (fun c h => by obtain ⟨h1, i, h2, h3, h4⟩ := hc c h; exact ⟨h1, i, h2, .inl h3, h4⟩)
  have e1 : newQuery t columns dts none = .ok q1 := by
    have : aliasOr (some t) t = aliasOr none t := by
      unfold aliasOr
      simp
    unfold newQuery at e0 ⊢
    rw [← this]
    exact e0
  have hcols : columns.flatMap (fun c => colsOf c ((dts.lookup c).join.getD [])) = columns := by
    clear e0 e1 b1 hx hn
    induction columns with
    | nil => rfl
    | cons c cs ih =>
      obtain ⟨-, i, hi, hv, -⟩ := hc c List.mem_cons_self
      have ih := ih (fun x hx => hc x (List.mem_cons_of_mem _ hx))
      rw [List.flatMap_cons, ih, hi, Option.join_some, Option.getD_some, colsOf_scalar hv]
      rfl
  rw [hcols] at b1
  have fin : ∀ (q : Query Y) (n : Nat) (Q : (Text → Text → Cell Y) → Prop), Built q [(t, t)] [(t, columns)] n Q → n ≤ 10 →
      (∀ r ∈ rows, ∀ row : Text → Text → Cell Y, (∀ c, row t c = r c) → (Q row ↔ P r = true)) →
      ∃ stmt : Select, (dbSelect q).1 = stmt.render ∧ stmt.eval (dbSelect q).2 db = (rows.filter P).map (fun r => columns.map r) := by
    intro q n Q hb hn hQ
    obtain ⟨stmt, e, hr⟩ := built_rows hb hn db
    refine ⟨stmt, e, ?_⟩
    have hqc : q.columns = columns.map (fun c => (t, c)) := by
      rw [columns_eq hb]
      simp
    rw [hr, comb_flatMap, hdb, filter_map_eq]
    apply flatMap_congr'
    intro r hr
    show (combinations db []).flatMap _ = _
    rw [combinations, List.flatMap_cons, List.flatMap_nil, List.append_nil]
    have key : ∀ c, ext t r (fun _ _ => Cell.null) t c = r c := by
      intro c
      unfold ext
      rw [if_pos rfl]
    rw [ite_congr_iff (hQ r hr _ key) (fun _ => rfl)]
    rw [hqc, List.map_map]
    have : (columns.map ((fun x : Text × Text => ext t r (fun _ _ => Cell.null) x.1 x.2) ∘ fun c => (t, c))) = columns.map r := by
      apply List.map_congr_left
      intro c _
      exact key c
    rw [this]
  cases c with
  | none =>
    obtain ⟨stmt, e, he⟩ := fin q1 0 _ b1 (by omega) (fun r hr row _ => by simp [hn rfl r hr])
    refine ⟨q1, stmt, ?_, e, he⟩
    unfold defaultSelect
    simp only [e1, bind, Except.bind, where_none]
  | some c =>
    obtain ⟨d, h1, h2, h3, h4, h5⟩ := hx c rfl
    obtain ⟨q2, e2, b2⟩ := built_where (S := S) b1 h1 h4 h2 h3
    obtain ⟨stmt, e, he⟩ := fin q2 _ _ b2 (by omega) (fun r hr row hrow => by rw [true_and]; exact h5 r hr row hrow)
    refine ⟨q2, stmt, ?_, e, he⟩
    unfold defaultSelect
    simp only [e1, bind, Except.bind, e2]

/-- More names. Proof device; nothing in /repo. -/
theorem noSemi_more : ∀ t ∈ ["namespace".toList, nsTable], NoSemi t := by
  unfold NoSemi
  decide +kernel

theorem cleanDts_ns : CleanDts nsDts := by
  intro e he
  simp only [nsDts, List.mem_cons, List.not_mem_nil, or_false] at he
  rcases he with rfl | rfl
  · exact ⟨noSemi_names _ (by simp), fun i h => by cases h; exact noSemi_names _ (by simp)⟩
  · exact ⟨noSemi_more _ (by simp), fun i h => by cases h; exact noSemi_names _ (by simp)⟩

/-- **C89.** The lookup of the key of a CUDS object: exactly the rows with its uid. -/
theorem lookup_cuds [DecidableEq Y] (S : PySet (Cell Y)) (db : Base Y) (rows : List (Nat × Nat)) (hdb : db "OSP_V1_CUDS".toList = rows.map cudsRow) (u : Nat) :
    ∃ (q : Query Y) (stmt : Select), cudsQuery S u = .ok q ∧ (dbSelect q).1 = stmt.render ∧
      stmt.eval (dbSelect q).2 db = (rows.filter (fun r => decide (r.2 = u))).map (fun r => [.idx r.1, .uid r.2]) := by
  obtain ⟨q, stmt, e1, e2, e3⟩ := default_select S (t := cudsTable) (noSemi_names _ (by simp)) (by decide) (columns := ["cuds_idx".toList, "uid".toList]) (dts := cudsDts) cleanDts_cuds
    (by
      intro c hc
      simp only [List.mem_cons, List.not_mem_nil, or_false] at hc
      rcases hc with rfl | rfl
      · exact ⟨noSemi_names _ (by simp), xsdInteger, by decide, isVec_int, noSemi_names _ (by simp)⟩
      · exact ⟨noSemi_names _ (by simp), "UUID".toList, by decide, isVec_uuid, noSemi_names _ (by simp)⟩)
    (some (.eq cudsTable "uid".toList (.uid u) (some "UUID".toList))) (fun r => match r "uid".toList with | .uid v => decide (v = u) | _ => false) (rows.map cudsRow) db hdb
    (by
      intro c' hc
      cases hc
      refine ⟨.eq cudsTable "uid".toList (.uid u) (some "UUID".toList), ?_, by simp [top], by simp [top, Cond.plain], ?_, ?_⟩
      · rw [expandCond]
        simp only [isVec_uuid, Bool.false_eq_true, if_false]
      · intro t ht
        cases ht <;> exact noSemi_names _ (by simp)
      · intro r hr row hrow
        obtain ⟨a, -, rfl⟩ := List.mem_map.1 hr
        rw [Cond.holds, hrow, cudsRow_uid]
        simp)
    (by intro h; cases h)
  refine ⟨q, stmt, e1, e2, ?_⟩
  rw [e3, List.filter_map, List.map_map]
  have h1 : ((fun r : Row Y => match r "uid".toList with | .uid v => decide (v = u) | _ => false) ∘ cudsRow) = (fun r : Nat × Nat => decide (r.2 = u)) := by
    funext r
    simp only [Function.comp_apply, cudsRow_uid]
  rw [h1]
  apply List.map_congr_left
  intro a _
  simp only [Function.comp_apply, List.map_cons, List.map_nil, cudsRow_uid, cudsRow_idx]

/-- **C89.** The lookup of the key of an entity: exactly the rows with its namespace and name. -/
theorem lookup_entity [DecidableEq Y] (S : PySet (Cell Y)) (db : Base Y) (rows : List (Nat × (Nat × Text))) (hdb : db "OSP_V1_ENTITIES".toList = rows.map entRow) (n : Nat) (name : Text) :
    ∃ (q : Query Y) (stmt : Select), entityQuery S n name = .ok q ∧ (dbSelect q).1 = stmt.render ∧
      stmt.eval (dbSelect q).2 db = (rows.filter (fun r => decide (r.2 = (n, name)))).map (fun r => [.idx r.1, .idx r.2.1, .txt r.2.2]) := by
  have ns := noSemi_names
  obtain ⟨d, h1, h2, h3, h4, h5⟩ := expand_flat S (cs := [.eq entitiesTable "ns_idx".toList (.idx n) (some xsdInteger), .eq entitiesTable "name".toList (.txt name) (some xsdString)]) (by
    intro c hc
    simp only [List.mem_cons, List.not_mem_nil, or_false] at hc
    rcases hc with rfl | rfl
    · exact ⟨ns _ (by simp), ns _ (by simp), _, rfl, .inl ⟨isVec_int, by intro l h; cases h⟩, ns _ (by simp)⟩
    · exact ⟨ns _ (by simp), ns _ (by simp), _, rfl, .inl ⟨isVec_str, by intro l h; cases h⟩, ns _ (by simp)⟩)
  obtain ⟨q, stmt, e1, e2, e3⟩ := default_select S (t := entitiesTable) (ns _ (by simp)) (by decide) (columns := ["entity_idx".toList, "ns_idx".toList, "name".toList]) (dts := entitiesDts) cleanDts_ents
    (by
      intro c hc
      simp only [List.mem_cons, List.not_mem_nil, or_false] at hc
      rcases hc with rfl | rfl | rfl
      · exact ⟨ns _ (by simp), xsdInteger, by decide, isVec_int, ns _ (by simp)⟩
      · exact ⟨ns _ (by simp), xsdInteger, by decide, isVec_int, ns _ (by simp)⟩
      · exact ⟨ns _ (by simp), xsdString, by decide, isVec_str, ns _ (by simp)⟩)
    (some (mkAnd S [.eq entitiesTable "ns_idx".toList (.idx n) (some xsdInteger), .eq entitiesTable "name".toList (.txt name) (some xsdString)]))
    (fun r => decide (r "ns_idx".toList = .idx n ∧ r "name".toList = .txt name)) (rows.map entRow) db hdb
    (by
      intro c' hc
      cases hc
      refine ⟨d, h1, Nat.le_trans h2 (by simp), h3, h4, ?_⟩
      intro r hr row hrow
      rw [h5, decide_eq_true_iff]
      simp only [List.mem_cons, List.not_mem_nil, or_false, forall_eq_or_imp, forall_eq, Means, hrow])
    (by intro h; cases h)
  refine ⟨q, stmt, e1, e2, ?_⟩
  rw [e3, List.filter_map, List.map_map]
  have h1 : ((fun r : Row Y => decide (r "ns_idx".toList = .idx n ∧ r "name".toList = .txt name)) ∘ entRow) = (fun r : Nat × (Nat × Text) => decide (r.2 = (n, name))) := by
    funext r
    simp only [Function.comp_apply, entRow_ns, entRow_name, Cell.idx.injEq, Cell.txt.injEq, Prod.ext_iff]
  rw [h1]
  apply List.map_congr_left
  intro a _
  simp only [Function.comp_apply, List.map_cons, List.map_nil, entRow_idx, entRow_ns, entRow_name]

/-- **C89.** The namespaces are read from the database as they are. -/
theorem lookup_namespaces [DecidableEq Y] (S : PySet (Cell Y)) (db : Base Y) (rows : List (Nat × Text)) (hdb : db "OSP_V1_NAMESPACES".toList = rows.map nsRow) :
    ∃ (q : Query Y) (stmt : Select), nsQuery S = .ok q ∧ (dbSelect q).1 = stmt.render ∧
      stmt.eval (dbSelect q).2 db = rows.map (fun r => [.idx r.1, .txt r.2]) := by
  have ns := noSemi_names
  obtain ⟨q, stmt, e1, e2, e3⟩ := default_select S (t := nsTable) (noSemi_more _ (by simp)) (by decide) (columns := ["ns_idx".toList, "namespace".toList]) (dts := nsDts) cleanDts_ns
    (by
      intro c hc
      simp only [List.mem_cons, List.not_mem_nil, or_false] at hc
      rcases hc with rfl | rfl
      · exact ⟨ns _ (by simp), xsdInteger, by decide, isVec_int, ns _ (by simp)⟩
      · exact ⟨noSemi_more _ (by simp), xsdString, by decide, isVec_str, ns _ (by simp)⟩)
    none (fun _ => true) (rows.map nsRow) db hdb (by intro c' h; cases h) (fun _ _ _ => rfl)
  refine ⟨q, stmt, e1, e2, ?_⟩
  rw [e3, List.filter_eq_self.2 (fun _ _ => rfl), List.map_map]
  apply List.map_congr_left
  intro a _
  simp [nsRow]

/-! ### insertions -/

/-- The columns and values of a row to insert after the vectors are spread. Specification; nothing in /repo. -/
def spread (cs : List (Text × Cell Y)) : List (Text × Cell Y) := cs.flatMap (fun x => match x.2 with
  | .vec l => ((List.range l.length).map (fun k => x.1 ++ "___".toList ++ dec k)).zip (l.map .val)
  | v => [(x.1, v)])

theorem zip_params {f : Text → Option (Cell Y)} (c : Text) (z : Cell Y) : ∀ (cols params : List Text) (vals : List (Cell Y)), params.length = cols.length → cols.length = vals.length →
    (∀ (i : Nat) (p : Text), params[i]? = some p → f p = vals[i]?) →
    (match (cols.zip params).lookup c with | some p => (f p).getD .null | none => z) = ((cols.zip vals).lookup c).getD z
  | [], _, _, _, _, _ => rfl
  | x :: cols, [], _, h, _, _ => by simp at h
  | x :: cols, _ :: _, [], _, h, _ => by simp at h
  | x :: cols, p :: ps, v :: vs, h1, h2, h => by
    have h0 := h 0 p rfl
    have ih := zip_params c z cols ps vs (by simpa using h1) (by simpa using h2) (fun i p' hp => by
      have := h (i + 1) p' (by simpa using hp)
      simpa using this)
    rw [List.zip_cons_cons, List.zip_cons_cons, List.lookup_cons, List.lookup_cons]
    cases hc : c == x
    · exact ih
    · simp only [List.getElem?_cons_zero] at h0
      simp [h0]

theorem insert_expand (d0 : Dts) : ∀ (cs : List (Text × Cell Y)), (∀ x ∈ cs, ∃ i, d0.lookup x.1 = some (some i) ∧ FitsType x.2 i) →
    ∃ vs, expandValues d0 (cs.map Prod.fst) (cs.map Prod.snd) = .ok vs ∧ ((cs.map Prod.fst).flatMap (fun c => colsOf c ((d0.lookup c).join.getD []))).length = vs.length ∧
      ((cs.map Prod.fst).flatMap (fun c => colsOf c ((d0.lookup c).join.getD []))).zip vs = spread cs
  | [], _ => ⟨[], rfl, rfl, rfl⟩
  | (c, v) :: cs, h => by
    obtain ⟨vs, e, hl, hz⟩ := insert_expand d0 cs (fun x hx => h x (List.mem_cons_of_mem _ hx))
    obtain ⟨i, hi, hf⟩ := h (c, v) List.mem_cons_self
    dsimp only at hi hf
    rcases hf with ⟨hv, hn⟩ | ⟨el, sh, l, rfl, he, hs, rfl, hlen⟩
    · refine ⟨v :: vs, ?_, ?_, ?_⟩
      · simp only [List.map_cons, expandValues, hi, e, Option.all_some, hv, Bool.not_false, if_true]
      · simp only [List.map_cons, List.flatMap_cons, hi, Option.join_some, Option.getD_some, colsOf_scalar hv, List.length_append, List.length_cons, List.length_nil, hl]
        omega
      · simp only [List.map_cons, List.flatMap_cons, hi, Option.join_some, Option.getD_some, colsOf_scalar hv, List.cons_append, List.nil_append, List.zip_cons_cons, hz]
        unfold spread
        rw [List.flatMap_cons]
        cases v with
        | vec l => exact absurd rfl (hn l)
        | _ => rfl
    · have hcols : ((List.range (shapeSize sh)).map (fun k => c ++ vecSuffix k)).length = (l.map Cell.val).length := by simp [hlen]
      refine ⟨l.map .val ++ vs, ?_, ?_, ?_⟩
      · simp only [List.map_cons, expandValues, hi, e, Option.all_some, isVec_vecIri, Bool.not_true, Bool.false_eq_true, if_false]
      · simp only [List.map_cons, List.flatMap_cons, hi, Option.join_some, Option.getD_some, colsOf_vec he hs, List.length_append, hcols, hl]
      · simp only [List.map_cons, List.flatMap_cons, hi, Option.join_some, Option.getD_some, colsOf_vec he hs]
        rw [List.zip_append hcols, hz]
        unfold spread
        rw [List.flatMap_cons]
        congr 1
        rw [← hlen]
        have : (fun k => c ++ vecSuffix k) = (fun k => c ++ "___".toList ++ dec k) := by
          funext k
          rw [List.append_assoc]
          rfl
        rw [this]

theorem check_ok_mem {V : Type} {args : List (Item V)} (h : checkArgs args = .ok ()) : ∀ x ∈ args, (∀ t, Inside t x → ';' ∉ t) ∧ ¬ Odd x := by
  by_cases hh : ∀ x ∈ args, (∀ t, Inside t x → ';' ∉ t) ∧ ¬ Odd x
  · exact hh
  · rw [check_bad hh] at h; cases h

/-- **C89.** An insertion: for values of the types of their columns, the statement inserts one row whose columns, with vectors spread over the columns `c___0`, `c___1`, ..., hold
exactly the given values. -/
theorem insert_row {t : Text} (ht : ';' ∉ t) (dts : Dts) (h0 : ∀ e ∈ dts, ';' ∉ e.1 ∧ ∀ i, e.2 = some i → ';' ∉ i) (cs : List (Text × Cell Y)) (hne : cs ≠ [])
    (h : ∀ x ∈ cs, ';' ∉ x.1 ∧ ∃ i, dts.lookup x.1 = some (some i) ∧ FitsType x.2 i ∧ ';' ∉ i) (generated : List (Text × Cell Y)) :
    ∃ (stmt : Text × (Text → Option (Cell Y))) (cols params : List Text), doInsert t (cs.map Prod.fst) (cs.map Prod.snd) dts = .ok stmt ∧ stmt.1 = renderInsert t cols params ∧
      params.Nodup ∧ ∀ c, insertedRow cols params stmt.2 generated c = ((spread cs).lookup c).getD ((generated.lookup c).getD .null) := by
  obtain ⟨d', e1, hd'⟩ := expandNames_ok dts h0 (cs.map Prod.fst) [] dts (by
    intro c hc
    obtain ⟨x, hx, rfl⟩ := List.mem_map.1 hc
    obtain ⟨h1, i, h2, h3, h4⟩ := h x hx
    refine ⟨h1, i, h2, ?_, h4⟩
    rcases h3 with h3 | ⟨e, sh, l, h3, h5, h6, -⟩
    · exact .inl h3.1
    · exact .inr ⟨e, sh, h3, h5, h6⟩) h0
  rw [List.nil_append] at e1
  obtain ⟨vs, e2, hl, hz⟩ := insert_expand dts cs (fun x hx => by obtain ⟨-, i, h2, h3, -⟩ := h x hx; exact ⟨i, h2, h3⟩)
  have hcols : ∀ c ∈ (cs.map Prod.fst).flatMap (fun c => colsOf c ((dts.lookup c).join.getD [])), NoSemi c := by
    intro c hc
    obtain ⟨x, hx, hc⟩ := List.mem_flatMap.1 hc
    obtain ⟨y, hy, rfl⟩ := List.mem_map.1 hx
    exact noSemi_colsOf (h y hy).1 hc
  have hch : checkArgs ([.str t, .list (((cs.map Prod.fst).flatMap (fun c => colsOf c ((dts.lookup c).join.getD []))).map .str), .dict (d'.map (fun e => (.str e.1, optItem e.2)))] : List (Item (Cell Y))) = .ok () := by
    have hall := namesItems_ok (Y := Y) (table := t) (alias := t) ht ht hcols hd'
    apply check_ok
    intro x hx
    have := check_ok_mem hall x (by
      unfold namesItems
      simp only [List.mem_cons, List.not_mem_nil, or_false] at hx ⊢
      rcases hx with hx | hx | hx
      · exact .inl hx
      · exact .inr (.inl hx)
      · exact .inr (.inr (.inl hx)))
    exact this
  obtain ⟨params, hp1, hp2, hp3, hp4⟩ := insert_statement t ((cs.map Prod.fst).flatMap (fun c => colsOf c ((dts.lookup c).join.getD []))) vs hl
  refine ⟨_, _, params, ?_, hp3, hp2, ?_⟩
  · unfold doInsert
    rw [if_neg (by cases cs <;> simp_all)]
    simp only [e1, e2, hch]
  · intro c
    unfold insertedRow
    rw [← hz]
    exact zip_params c _ _ _ _ hp1 hl hp4

theorem lookup_cons_ite {β : Type} (c k : Text) (b : β) (l : List (Text × β)) : ((k, b) :: l).lookup c = if c = k then some b else l.lookup c := by
  rw [List.lookup_cons]
  by_cases h : c = k
  · simp [h]
  · simp [h, beq_eq_false_iff_ne.2 h]

theorem lookup_elems (l : List Y) (c : Text) : ∀ k, (((List.range' k l.length).map (fun k => "o".toList ++ "___".toList ++ dec k)).zip (l.map Cell.val)).lookup c =
    match elemCol c k l with | .null => none | x => some x := by
  induction l with
  | nil => intro k; rfl
  | cons y l ih =>
    intro k
    rw [List.length_cons, List.range'_succ, List.map_cons, List.map_cons, List.zip_cons_cons, lookup_cons_ite, elemCol, ih]
    have : "o".toList ++ "___".toList = "o___".toList := by decide
    rw [this]
    by_cases h : c = "o___".toList ++ dec k
    · rw [if_pos h, if_pos h]
    · rw [if_neg h, if_neg h]

/-- **C89.** Adding an attribute inserts exactly its row, also for a vector. -/
theorem insert_data {d t : Text} (ht : dataTableName d = .ok t) (hsemi : ';' ∉ d) (s p : Nat) (v : Dat Y) (hv : v.Fits d) :
    ∃ (stmt : Text × (Text → Option (Cell Y))) (cols params : List Text), doInsert t ["s".toList, "p".toList, "o".toList] [.idx s, .idx p, v.cell] (dataDts d) = .ok stmt ∧
      stmt.1 = renderInsert t cols params ∧ params.Nodup ∧ insertedRow cols params stmt.2 [] = dataRow (s, p, v) := by
  have ns := noSemi_names
  obtain ⟨stmt, cols, params, e1, e2, e3, e4⟩ := insert_row (table_noSemi ht hsemi) (dataDts d) (by
      intro e he
      simp only [dataDts, List.mem_cons, List.not_mem_nil, or_false] at he
      rcases he with rfl | rfl | rfl
      · exact ⟨ns _ (by simp), fun i h => by cases h; exact hsemi⟩
      · exact ⟨ns _ (by simp), fun i h => by cases h; exact ns _ (by simp)⟩
      · exact ⟨ns _ (by simp), fun i h => by cases h; exact ns _ (by simp)⟩)
    [("s".toList, .idx s), ("p".toList, .idx p), ("o".toList, v.cell)] (by simp) (by
      intro x hx
      simp only [List.mem_cons, List.not_mem_nil, or_false] at hx
      rcases hx with rfl | rfl | rfl
      · exact ⟨ns _ (by simp), xsdInteger, by simp [dataDts, lookup_cons_ite], .inl ⟨isVec_int, by intro l h; cases h⟩, ns _ (by simp)⟩
      · exact ⟨ns _ (by simp), xsdInteger, by simp [dataDts, lookup_cons_ite], .inl ⟨isVec_int, by intro l h; cases h⟩, ns _ (by simp)⟩
      · refine ⟨ns _ (by simp), d, by simp [dataDts], ?_, hsemi⟩
        cases v with
        | one y => exact .inl ⟨hv, by intro l h; cases h⟩
        | many l =>
          obtain ⟨e, sh, h1, h2, h3, h4⟩ := hv
          exact .inr ⟨e, sh, l, h1, h2, h3, rfl, h4⟩) []
  refine ⟨stmt, cols, params, e1, e2, e3, ?_⟩
  funext c
  rw [e4]
  unfold spread dataRow
  simp only [List.flatMap_cons, List.flatMap_nil, List.cons_append, List.nil_append, List.append_nil, lookup_cons_ite]
  by_cases h1 : c = "s".toList
  · rw [if_pos h1, if_pos h1]; rfl
  · by_cases h2 : c = "p".toList
    · rw [if_neg h1, if_neg h1, if_pos h2, if_pos h2]; rfl
    · rw [if_neg h1, if_neg h1, if_neg h2, if_neg h2]
      cases v with
      | one y =>
        simp only [Dat.cell, lookup_cons_ite, List.lookup_nil, Option.getD_none]
        by_cases h3 : c = "o".toList
        · rw [if_pos h3, if_pos h3]; rfl
        · rw [if_neg h3, if_neg h3]; rfl
      | many l =>
        simp only [Dat.cell, List.lookup_nil, Option.getD_none]
        rw [List.range_eq_range', lookup_elems]
        cases elemCol c 0 l <;> rfl

/-- **C89.** Adding a type inserts exactly its row. -/
theorem insert_type (s o : Nat) : ∃ (stmt : Text × (Text → Option (Cell Y))) (cols params : List Text),
    doInsert typesTable ["s".toList, "o".toList] [.idx s, .idx o] typesDts = .ok stmt ∧ stmt.1 = renderInsert typesTable cols params ∧ params.Nodup ∧
      insertedRow cols params stmt.2 [] = typeRow (s, o) := by
  have ns := noSemi_names
  obtain ⟨stmt, cols, params, e1, e2, e3, e4⟩ := insert_row (Y := Y) (t := typesTable) (ns _ (by simp)) typesDts (by
      intro e he
      simp only [typesDts, List.mem_cons, List.not_mem_nil, or_false] at he
      rcases he with rfl | rfl <;> exact ⟨ns _ (by simp), fun i h => by cases h; exact ns _ (by simp)⟩)
    [("s".toList, .idx s), ("o".toList, .idx o)] (by simp) (by
      intro x hx
      simp only [List.mem_cons, List.not_mem_nil, or_false] at hx
      rcases hx with rfl | rfl
      · exact ⟨ns _ (by simp), xsdInteger, by dsimp only; decide, .inl ⟨isVec_int, by intro l h; cases h⟩, ns _ (by simp)⟩
      · exact ⟨ns _ (by simp), xsdInteger, by dsimp only; decide, .inl ⟨isVec_int, by intro l h; cases h⟩, ns _ (by simp)⟩) []
  refine ⟨stmt, cols, params, e1, e2, e3, ?_⟩
  funext c
  rw [e4]
  unfold spread typeRow
  simp only [List.flatMap_cons, List.flatMap_nil, List.cons_append, List.nil_append, lookup_cons_ite, List.lookup_nil, Option.getD_none]
  split
  · rfl
  · split <;> rfl

/-- **C89.** Adding a relationship inserts exactly its row. -/
theorem insert_rel (s p o : Nat) : ∃ (stmt : Text × (Text → Option (Cell Y))) (cols params : List Text),
    doInsert relsTable ["s".toList, "p".toList, "o".toList] [.idx s, .idx p, .idx o] relsDts = .ok stmt ∧ stmt.1 = renderInsert relsTable cols params ∧ params.Nodup ∧
      insertedRow cols params stmt.2 [] = relRow (s, p, o) := by
  have ns := noSemi_names
  obtain ⟨stmt, cols, params, e1, e2, e3, e4⟩ := insert_row (Y := Y) (t := relsTable) (ns _ (by simp)) relsDts (by
      intro e he
      simp only [relsDts, List.mem_cons, List.not_mem_nil, or_false] at he
      rcases he with rfl | rfl | rfl <;> exact ⟨ns _ (by simp), fun i h => by cases h; exact ns _ (by simp)⟩)
    [("s".toList, .idx s), ("p".toList, .idx p), ("o".toList, .idx o)] (by simp) (by
      intro x hx
      simp only [List.mem_cons, List.not_mem_nil, or_false] at hx
      rcases hx with rfl | rfl | rfl
      · exact ⟨ns _ (by simp), xsdInteger, by dsimp only; decide, .inl ⟨isVec_int, by intro l h; cases h⟩, ns _ (by simp)⟩
      · exact ⟨ns _ (by simp), xsdInteger, by dsimp only; decide, .inl ⟨isVec_int, by intro l h; cases h⟩, ns _ (by simp)⟩
      · exact ⟨ns _ (by simp), xsdInteger, by dsimp only; decide, .inl ⟨isVec_int, by intro l h; cases h⟩, ns _ (by simp)⟩) []
  refine ⟨stmt, cols, params, e1, e2, e3, ?_⟩
  funext c
  rw [e4]
  unfold spread relRow
  simp only [List.flatMap_cons, List.flatMap_nil, List.cons_append, List.nil_append, lookup_cons_ite, List.lookup_nil, Option.getD_none]
  split
  · rfl
  · split
    · rfl
    · split <;> rfl

/-- **C89.** Registering a CUDS object inserts its row, with the key the database generates. -/
theorem insert_cuds (k u : Nat) : ∃ (stmt : Text × (Text → Option (Cell Y))) (cols params : List Text),
    doInsert cudsTable ["uid".toList] [.uid u] cudsDts = .ok stmt ∧ stmt.1 = renderInsert cudsTable cols params ∧ params.Nodup ∧
      insertedRow cols params stmt.2 [("cuds_idx".toList, .idx k)] = cudsRow (k, u) := by
  have ns := noSemi_names
  obtain ⟨stmt, cols, params, e1, e2, e3, e4⟩ := insert_row (Y := Y) (t := cudsTable) (ns _ (by simp)) cudsDts cleanDts_cuds
    [("uid".toList, .uid u)] (by simp) (by
      intro x hx
      cases List.mem_singleton.1 hx
      exact ⟨ns _ (by simp), "UUID".toList, by dsimp only; decide, .inl ⟨isVec_uuid, by intro l h; cases h⟩, ns _ (by simp)⟩) [("cuds_idx".toList, .idx k)]
  refine ⟨stmt, cols, params, e1, e2, e3, ?_⟩
  funext c
  rw [e4]
  unfold spread cudsRow
  simp only [List.flatMap_cons, List.flatMap_nil, List.append_nil, lookup_cons_ite, List.lookup_nil]
  by_cases h : c = "cuds_idx".toList
  · rw [if_pos h, if_pos h, if_neg (by rw [h]; decide)]; rfl
  · rw [if_neg h, if_neg h]
    split <;> rfl

/-- **C89.** Registering an entity inserts its row, with the key the database generates. -/
theorem insert_entity (k n : Nat) (name : Text) : ∃ (stmt : Text × (Text → Option (Cell Y))) (cols params : List Text),
    doInsert entitiesTable ["ns_idx".toList, "name".toList] [.idx n, .txt name] entitiesDts = .ok stmt ∧ stmt.1 = renderInsert entitiesTable cols params ∧ params.Nodup ∧
      insertedRow cols params stmt.2 [("entity_idx".toList, .idx k)] = entRow (k, (n, name)) := by
  have ns := noSemi_names
  obtain ⟨stmt, cols, params, e1, e2, e3, e4⟩ := insert_row (Y := Y) (t := entitiesTable) (ns _ (by simp)) entitiesDts cleanDts_ents
    [("ns_idx".toList, .idx n), ("name".toList, .txt name)] (by simp) (by
      intro x hx
      simp only [List.mem_cons, List.not_mem_nil, or_false] at hx
      rcases hx with rfl | rfl
      · exact ⟨ns _ (by simp), xsdInteger, by dsimp only; decide, .inl ⟨isVec_int, by intro l h; cases h⟩, ns _ (by simp)⟩
      · exact ⟨ns _ (by simp), xsdString, by dsimp only; decide, .inl ⟨isVec_str, by intro l h; cases h⟩, ns _ (by simp)⟩) [("entity_idx".toList, .idx k)]
  refine ⟨stmt, cols, params, e1, e2, e3, ?_⟩
  funext c
  rw [e4]
  unfold spread entRow
  simp only [List.flatMap_cons, List.flatMap_nil, List.cons_append, List.nil_append, lookup_cons_ite, List.lookup_nil]
  by_cases h : c = "entity_idx".toList
  · rw [if_pos h, if_pos h, if_neg (by rw [h]; decide), if_neg (by rw [h]; decide)]; rfl
  · rw [if_neg h, if_neg h]
    split
    · rfl
    · split <;> rfl

/-- **C89.** Registering a namespace inserts its row, with the key the database generates. -/
theorem insert_namespace (k : Nat) (iri : Text) : ∃ (stmt : Text × (Text → Option (Cell Y))) (cols params : List Text),
    doInsert nsTable ["namespace".toList] [.txt iri] nsDts = .ok stmt ∧ stmt.1 = renderInsert nsTable cols params ∧ params.Nodup ∧
      insertedRow cols params stmt.2 [("ns_idx".toList, .idx k)] = nsRow (k, iri) := by
  have ns := noSemi_names
  obtain ⟨stmt, cols, params, e1, e2, e3, e4⟩ := insert_row (Y := Y) (t := nsTable) (noSemi_more _ (by simp)) nsDts cleanDts_ns
    [("namespace".toList, .txt iri)] (by simp) (by
      intro x hx
      cases List.mem_singleton.1 hx
      exact ⟨noSemi_more _ (by simp), xsdString, by dsimp only; decide, .inl ⟨isVec_str, by intro l h; cases h⟩, ns _ (by simp)⟩) [("ns_idx".toList, .idx k)]
  refine ⟨stmt, cols, params, e1, e2, e3, ?_⟩
  funext c
  rw [e4]
  unfold spread nsRow
  simp only [List.flatMap_cons, List.flatMap_nil, List.append_nil, lookup_cons_ite, List.lookup_nil]
  by_cases h : c = "ns_idx".toList
  · rw [if_pos h, if_pos h, if_neg (by rw [h]; decide)]; rfl
  · rw [if_neg h, if_neg h]
    split <;> rfl

/-! ### clearing -/

/-- **C89.** A deletion without a condition empties the table. -/
theorem delete_all [DecidableEq Y] (S : PySet (Cell Y)) {t : Text} (ht : ';' ∉ t) (rows : List (Row Y)) :
    ∃ stmt parts, doDelete S t none = .ok stmt ∧ stmt.1 = renderDelete t parts ∧ evalDelete parts stmt.2 rows = [] := by
  obtain ⟨parts, e1, e2⟩ := delete_statement t (none : Option (Cond (Cell Y))) (by intro x hx; cases hx) rows (fun _ => true) (by
    intro r _
    exact ⟨(fun _ _ h => by cases h), (fun _ => rfl)⟩)
  refine ⟨_, parts, ?_, e1, by rw [e2]; exact List.filter_eq_nil_iff.2 (by simp)⟩
  have hc : checkArgs ([.str t, condItem none] : List (Item (Cell Y))) = .ok () := by
    apply check_ok
    intro x hx
    simp only [List.mem_cons, List.not_mem_nil, or_false, condItem] at hx
    rcases hx with rfl | rfl
    · exact ⟨fun t' h => (by cases h; exact ht), fun h => nomatch h⟩
    · exact ⟨(fun t' h => by cases h), fun h => nomatch h⟩
  unfold doDelete
  simp only [hc, expandOpt]

end Osp.Stmt
