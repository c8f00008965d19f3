import Verif.Stmt.Props
/-!
# The queries the triple store builds (C89)
-/
namespace Osp.Stmt
open Osp.Sql

variable {Y : Type}

/-! ### names without semicolons -/

/-- Proof device; nothing in /repo. -/
def NoSemi (t : Text) : Prop := ';' ∉ t

theorem noSemi_dec (k : Nat) : NoSemi (dec k) := by
  intro h
  have := dec_digits k _ h
  revert this
  unfold IsDigit
  decide

theorem noSemi_append {a b : Text} (h : NoSemi a) (h' : NoSemi b) : NoSemi (a ++ b) := by
  intro hm
  rcases List.mem_append.1 hm with hm | hm
  · exact h hm
  · exact h' hm

theorem noSemi_suffix {c : Text} (h : NoSemi c) (k : Nat) : NoSemi (c ++ vecSuffix k) :=
  noSemi_append h (noSemi_append (by unfold NoSemi; decide) (noSemi_dec k))

theorem noSemi_yml {e : Text} (h : e ∈ ymlNames) : NoSemi e := by
  have : ∀ e ∈ ymlNames, ';' ∉ e := by decide
  exact this e h

/-- A datatype of a column. Proof device; nothing in /repo. -/
def GoodDt (i : Text) : Prop := isVec i = false ∨ ∃ e sh, i = vecIri e sh ∧ e ∈ ymlNames ∧ sh ≠ []

/-- The columns of a value. Proof device; nothing in /repo. -/
def colsOf (c i : Text) : List Text := if isVec i then match parseVecIri i with
  | .ok (_, sh) => (List.range (shapeSize sh)).map (fun k => c ++ vecSuffix k)
  | .error _ => [] else [c]

theorem colsOf_scalar {c i : Text} (h : isVec i = false) : colsOf c i = [c] := by
  unfold colsOf; simp [h]

theorem colsOf_vec {c e : Text} {sh : List Nat} (he : e ∈ ymlNames) (hs : sh ≠ []) : colsOf c (vecIri e sh) = (List.range (shapeSize sh)).map (fun k => c ++ vecSuffix k) := by
  unfold colsOf
  rw [isVec_vecIri, vector_iri_roundtrip e he sh hs]
  simp

/-- Proof device; nothing in /repo. -/
def CleanDts (d : Dts) : Prop := ∀ e ∈ d, NoSemi e.1 ∧ ∀ i, e.2 = some i → NoSemi i

theorem cleanDts_put {d : Dts} {k : Text} {v : Option Text} (h : CleanDts d) (hk : NoSemi k) (hv : ∀ i, v = some i → NoSemi i) : CleanDts (d.put k v) := by
  unfold Dts.put
  split
  · intro e he
    obtain ⟨x, hx, rfl⟩ := List.mem_map.1 he
    split
    · exact ⟨hk, hv⟩
    · exact h x hx
  · intro e he
    rcases List.mem_append.1 he with he | he
    · exact h e he
    · cases List.mem_singleton.1 he
      exact ⟨hk, hv⟩

theorem cleanDts_foldl {edt : Text} (he : NoSemi edt) : ∀ (cols : List Text) (d : Dts), (∀ c ∈ cols, NoSemi c) → CleanDts d → CleanDts (cols.foldl (fun d k => d.put k (some edt)) d)
  | [], _, _, h => h
  | c :: cs, d, hc, h => cleanDts_foldl he cs _ (fun x hx => hc x (List.mem_cons_of_mem _ hx))
      (cleanDts_put h (hc c List.mem_cons_self) (fun i e => by cases e; exact he))

theorem expandNames_ok (d0 : Dts) (h0 : CleanDts d0) : ∀ (cols out : List Text) (d : Dts), (∀ c ∈ cols, NoSemi c ∧ ∃ i, d0.lookup c = some (some i) ∧ GoodDt i ∧ NoSemi i) → CleanDts d →
    ∃ d', expandNames d0 cols out d = .ok (out ++ cols.flatMap (fun c => colsOf c ((d0.lookup c).join.getD [])), d') ∧ CleanDts d'
  | [], out, d, _, hd => ⟨d, by simp [expandNames], hd⟩
  | c :: cs, out, d, hc, hd => by
    obtain ⟨hcs, i, hi, hg, hsi⟩ := hc c List.mem_cons_self
    have hr := fun x hx => hc x (List.mem_cons_of_mem _ hx)
    rcases hg with hg | ⟨e, sh, rfl, he, hs⟩
    · obtain ⟨d', e, hd'⟩ := expandNames_ok d0 h0 cs (out ++ [c]) (d.put c (some i)) hr (cleanDts_put hd hcs (fun j e => by cases e; exact hsi))
      refine ⟨d', ?_, hd'⟩
      rw [expandNames]
      simp only [hi, Option.all_some, hg, Bool.not_false, if_true, e, List.flatMap_cons, Option.join_some, Option.getD_some, colsOf_scalar hg, List.append_assoc]
    · have hx : ∀ x ∈ (List.range (shapeSize sh)).map (fun k => c ++ vecSuffix k), NoSemi x := by
        intro x hx
        obtain ⟨k, -, rfl⟩ := List.mem_map.1 hx
        exact noSemi_suffix hcs k
      obtain ⟨d', e', hd'⟩ := expandNames_ok d0 h0 cs (out ++ (List.range (shapeSize sh)).map (fun k => c ++ vecSuffix k))
        ((((List.range (shapeSize sh)).map (fun k => c ++ vecSuffix k)).foldl (fun d k => d.put k (some e)) d).put c (some (vecIri e sh))) hr
        (cleanDts_put (cleanDts_foldl (noSemi_yml he) _ _ hx hd) hcs (fun j e => by cases e; exact hsi))
      refine ⟨d', ?_, hd'⟩
      rw [expandNames]
      simp only [hi, Option.all_some, isVec_vecIri, Bool.not_true, Bool.false_eq_true, if_false, Option.getD_some, expandedCols_vec he hs, e', List.flatMap_cons,
        Option.join_some, colsOf_vec he hs, List.append_assoc]

theorem noSemi_colsOf {c i x : Text} (hc : NoSemi c) (h : x ∈ colsOf c i) : NoSemi x := by
  unfold colsOf at h
  split at h
  · split at h
    · obtain ⟨k, -, rfl⟩ := List.mem_map.1 h
      exact noSemi_suffix hc k
    · cases h
  · cases List.mem_singleton.1 h
    exact hc

theorem namesItems_ok {table alias : Text} {cols : List Text} {d : Dts} (ht : NoSemi table) (ha : NoSemi alias) (hc : ∀ c ∈ cols, NoSemi c) (hd : CleanDts d) :
    checkArgs (namesItems (Y := Y) table cols d alias) = .ok () := by
  apply check_ok
  intro x hx
  simp only [namesItems, List.mem_cons, List.not_mem_nil, or_false] at hx
  rcases hx with rfl | rfl | rfl | rfl
  · refine ⟨fun t h => ?_, fun h => nomatch h⟩
    cases h; exact ht
  · constructor
    · intro t h
      cases h with
      | list hm hi =>
        obtain ⟨c, hc', rfl⟩ := List.mem_map.1 hm
        cases hi
        exact hc _ hc'
    · intro h
      cases h with
      | list hm hi =>
        obtain ⟨c, hc', rfl⟩ := List.mem_map.1 hm
        cases hi
  · constructor
    · intro t h
      cases h with
      | key hm hi =>
        obtain ⟨e, he, heq⟩ := List.mem_map.1 hm
        cases heq
        cases hi
        exact (hd e he).1
      | value hm hi =>
        obtain ⟨e, he, heq⟩ := List.mem_map.1 hm
        have h1 := congrArg Prod.snd heq
        have h2 := (hd e he).2
        cases hv : e.2 with
        | none => simp only [hv, optItem] at h1; subst h1; cases hi
        | some i => simp only [hv, optItem] at h1; subst h1; cases hi; exact h2 _ hv
    · intro h
      cases h with
      | key hm hi =>
        obtain ⟨e, he, heq⟩ := List.mem_map.1 hm
        cases heq
        cases hi
      | value hm hi =>
        obtain ⟨e, he, heq⟩ := List.mem_map.1 hm
        have h1 := congrArg Prod.snd heq
        cases hv : e.2 with
        | none => simp only [hv, optItem] at h1; subst h1; cases hi
        | some i => simp only [hv, optItem] at h1; subst h1; cases hi
  · refine ⟨fun t h => ?_, fun h => nomatch h⟩
    cases h; exact ha

/-! ### building a query step by step -/

/-- The conditions on the highest level. Proof device; nothing in /repo. -/
def top : Option (Cond (Cell Y)) → List (Cond (Cell Y))
  | none => []
  | some (.and l) => l
  | some c => [c]

theorem plain_of_top {c : Cond (Cell Y)} (hl : (top (some c)).length ≤ 10) (hp : ∀ x ∈ top (some c), x.plain = true) : c.plain = true := by
  cases c with
  | eq => rfl
  | join => rfl
  | and l =>
    rw [Cond.plain, Bool.and_eq_true, Bool.or_eq_true, plainL_iff]
    exact ⟨.inl (decide_eq_true hl), hp⟩

theorem top_merge (S : PySet (Cell Y)) (old : Option (Cond (Cell Y))) (c : Cond (Cell Y)) :
    (top (some (merge S old c))).length ≤ (top old).length + (top (some c)).length ∧ ∀ x ∈ top (some (merge S old c)), x ∈ top old ∨ x ∈ top (some c) := by
  have key : ∀ l l' : List (Cond (Cell Y)), (S.items (l ++ l')).length ≤ l.length + l'.length ∧ ∀ x ∈ S.items (l ++ l'), x ∈ l ∨ x ∈ l' := by
    intro l l'
    refine ⟨Nat.le_trans (S.length_le _) (by simp), fun x hx => List.mem_append.1 (S.sub hx)⟩
  have key' : ∀ l l' : List (Cond (Cell Y)), (S.items (l' ++ l)).length ≤ l.length + l'.length ∧ ∀ x ∈ S.items (l' ++ l), x ∈ l ∨ x ∈ l' := by
    intro l l'
    have := key l' l
    exact ⟨by omega, fun x hx => (this.2 x hx).symm⟩
  cases old with
  | none => simp [merge, top]
  | some old =>
    cases old with
    | eq t1 c1 v1 d1 =>
      cases c with
      | eq t2 c2 v2 d2 => exact key [_] [_]
      | join => exact key [_] [_]
      | and l => exact key' [_] l
    | join t1 c1 t2 c2 =>
      cases c with
      | eq t2 c2 v2 d2 => exact key [_] [_]
      | join => exact key [_] [_]
      | and l => exact key' [_] l
    | and l1 =>
      cases c with
      | eq t2 c2 v2 d2 => exact key l1 [_]
      | join => exact key l1 [_]
      | and l => exact key l1 l

/-- A query in the making. Proof device; nothing in /repo. -/
structure Built (q : Query Y) (tables : List (Text × Text)) (cols : List (Text × List Text)) (n : Nat) (P : (Text → Text → Cell Y) → Prop) : Prop where
  order : q.order = tables.map Prod.fst
  tables : q.tables = tables
  cols : q.cols = cols
  len : (top q.cond).length ≤ n
  plain : ∀ x ∈ top q.cond, x.plain = true
  holds : ∀ row, q.Holds row ↔ P row

theorem Built.isPlain {q : Query Y} {ts : List (Text × Text)} {cs : List (Text × List Text)} {n : Nat} {P : (Text → Text → Cell Y) → Prop} (h : Built q ts cs n P) (hn : n ≤ 10) :
    ∀ c, q.cond = some c → c.plain = true := by
  intro c hc
  apply plain_of_top
  · rw [← hc]; exact Nat.le_trans h.len hn
  · rw [← hc]; exact h.plain

theorem built_new {table a : Text} {columns : List Text} {dts : Dts} (ha : a ≠ []) (ht : NoSemi table) (has : NoSemi a) (h0 : CleanDts dts)
    (hc : ∀ c ∈ columns, NoSemi c ∧ ∃ i, dts.lookup c = some (some i) ∧ GoodDt i ∧ NoSemi i) :
    ∃ q : Query Y, newQuery table columns dts (some a) = .ok q ∧
      Built q [(a, table)] [(a, columns.flatMap (fun c => colsOf c ((dts.lookup c).join.getD [])))] 0 (fun _ => True) := by
  obtain ⟨d', e, hd'⟩ := expandNames_ok dts h0 columns [] dts hc h0
  have hn : aliasOr (some a) table = a := by
    unfold aliasOr
    cases a with
    | nil => exact absurd rfl ha
    | cons x xs => rfl
  refine ⟨⟨[a], [(a, table)], [(a, columns.flatMap (fun c => colsOf c ((dts.lookup c).join.getD [])))], [(a, d')], none⟩, ?_, ?_⟩
  · unfold newQuery
    simp only [hn, e, List.nil_append]
    rw [namesItems_ok ht has ?_ hd']
    intro x hx
    obtain ⟨c, hc', hx⟩ := List.mem_flatMap.1 hx
    exact noSemi_colsOf (hc c hc').1 hx
  · exact ⟨rfl, rfl, rfl, Nat.le_refl _, by simp [top], fun row => by simp [Query.Holds]⟩

theorem built_join {q : Query Y} {ts : List (Text × Text)} {cs : List (Text × List Text)} {n : Nat} {P : (Text → Text → Cell Y) → Prop} (h : Built q ts cs n P)
    {table : Text} {alias : Option Text} {columns : List Text} {dts : Dts} (ht : NoSemi table) (has : NoSemi (aliasOr alias table)) (h0 : CleanDts dts)
    (hc : ∀ c ∈ columns, NoSemi c ∧ ∃ i, dts.lookup c = some (some i) ∧ GoodDt i ∧ NoSemi i) (hnew : ∀ e ∈ ts, e.1 ≠ aliasOr alias table) :
    ∃ q' : Query Y, q.join table columns dts alias = .ok q' ∧
      Built q' (ts ++ [(aliasOr alias table, table)]) (cs ++ [(aliasOr alias table, columns.flatMap (fun c => colsOf c ((dts.lookup c).join.getD [])))]) n P := by
  obtain ⟨d', e, hd'⟩ := expandNames_ok dts h0 columns [] dts hc h0
  refine ⟨{ q with order := q.order ++ [aliasOr alias table], tables := q.tables ++ [(aliasOr alias table, table)], cols := q.cols ++ [(aliasOr alias table, columns.flatMap (fun c => colsOf c ((dts.lookup c).join.getD [])))], dts := q.dts ++ [(aliasOr alias table, d')] }, ?_, ?_⟩
  · unfold Query.join
    simp only [e, List.nil_append]
    rw [namesItems_ok ht has ?_ hd']
    · have : q.tables.any (fun e => decide (e.1 = aliasOr alias table)) = false := by
        rw [List.any_eq_false]
        intro x hx hd
        rw [h.tables] at hx
        exact hnew x hx (of_decide_eq_true hd)
      simp only [this, Bool.false_eq_true, if_false]
    · intro x hx
      obtain ⟨c, hc', hx⟩ := List.mem_flatMap.1 hx
      exact noSemi_colsOf (hc c hc').1 hx
  · exact ⟨by simp [h.order], by simp [h.tables], by simp [h.cols], h.len, h.plain, h.holds⟩

theorem built_where {S : PySet (Cell Y)} {q : Query Y} {ts : List (Text × Text)} {cs : List (Text × List Text)} {n : Nat} {P : (Text → Text → Cell Y) → Prop} (h : Built q ts cs n P)
    {c d : Cond (Cell Y)} (e : expandCond S c = .ok d) (hs : ∀ t, Inside t (.cond d) → NoSemi t) {m : Nat} (hm : (top (some d)).length ≤ m) (hp : ∀ x ∈ top (some d), x.plain = true) :
    ∃ q' : Query Y, q.where_ S (some c) = .ok q' ∧ Built q' ts cs (n + m) (fun row => P row ∧ d.holds row) := by
  refine ⟨_, where_eq S q e ((check_cond d).1.2 hs), ?_⟩
  have ht := top_merge S q.cond d
  refine ⟨h.order, h.tables, h.cols, ?_, ?_, ?_⟩
  · have := h.len
    exact Nat.le_trans ht.1 (by omega)
  · intro x hx
    rcases ht.2 x hx with hx | hx
    · exact h.plain x hx
    · exact hp x hx
  · intro row
    show (merge S q.cond d).holds row ↔ _
    rw [merge_holds, h.holds]

theorem built_where_join {S : PySet (Cell Y)} {q : Query Y} {ts : List (Text × Text)} {cs : List (Text × List Text)} {n : Nat} {P : (Text → Text → Cell Y) → Prop} (h : Built q ts cs n P)
    {t1 c1 t2 c2 : Text} (h1 : NoSemi t1) (h2 : NoSemi c1) (h3 : NoSemi t2) (h4 : NoSemi c2) :
    ∃ q' : Query Y, q.where_ S (some (.join t1 c1 t2 c2)) = .ok q' ∧ Built q' ts cs (n + 1) (fun row => P row ∧ row t1 c1 = row t2 c2) := by
  obtain ⟨q', e, hb⟩ := built_where (S := S) h (c := .join t1 c1 t2 c2) (d := .join t1 c1 t2 c2) (by rw [expandCond]) (by intro t ht; cases ht <;> assumption)
    (m := 1) (by simp [top]) (by simp [top, Cond.plain])
  exact ⟨q', e, hb.order, hb.tables, hb.cols, hb.len, hb.plain, fun row => by rw [hb.holds, Cond.holds]⟩

/-! ### the conditions of a pattern -/

theorem pyEq_means (row : Text → Text → Cell Y) {c d : Cond (Cell Y)} (h : PyEq c d) : Means row c ↔ Means row d := by
  induction h with
  | eq => rfl
  | join => rfl
  | and as bs f g h1 h2 h3 h4 ih1 ih2 =>
    rw [Means, Means, meansAll_iff, meansAll_iff]
    exact ⟨fun h b hb => (ih2 b hb).1 (h _ (h3 b hb)), fun h a ha => (ih1 a ha).2 (h _ (h1 a ha))⟩

theorem mkAnd_means (S : PySet (Cell Y)) (row : Text → Text → Cell Y) (cs : List (Cond (Cell Y))) : Means row (mkAnd S cs) ↔ ∀ c ∈ cs, Means row c := by
  rw [mkAnd, Means, meansAll_iff]
  constructor
  · intro h c hc
    obtain ⟨d, hd, e⟩ := S.whole cs c hc
    exact (pyEq_means row e).1 (h d hd)
  · intro h c hc
    exact h c (S.sub hc)

/-- A comparison with a value of the right type and names without semicolons. Proof device; nothing in /repo. -/
def GoodEq : Cond (Cell Y) → Prop
  | .eq t c v dt => NoSemi t ∧ NoSemi c ∧ ∃ i, dt = some i ∧ FitsType v i ∧ NoSemi i
  | _ => False

theorem expandEq_ok (S : PySet (Cell Y)) {c : Cond (Cell Y)} (h : GoodEq c) :
    Fits c ∧ ∀ d, expandCond S c = .ok d → d.plain = true ∧ ∀ t, Inside t (.cond d) → NoSemi t := by
  cases c with
  | join => exact h.elim
  | and => exact h.elim
  | eq t c v dt =>
    obtain ⟨ht, hc, i, rfl, hf, hi⟩ := h
    refine ⟨⟨i, rfl, hf⟩, ?_⟩
    rcases hf with ⟨hv, hn⟩ | ⟨e, sh, l, rfl, he, hs, rfl, hl⟩
    · intro d hd
      rw [expandCond] at hd
      simp only [hv, Bool.false_eq_true, if_false] at hd
      cases hd
      exact ⟨rfl, fun t h => by cases h <;> assumption⟩
    · intro d hd
      rw [expandCond] at hd
      simp only [isVec_vecIri, if_true, expandedCols_vec he hs] at hd
      have hd : mkAnd S (elemConds t c l e (shapeSize sh)) = d := Except.ok.inj hd
      subst hd
      have hm : ∀ x ∈ elemConds t c l e (shapeSize sh), ∃ k y, x = .eq t (c ++ vecSuffix k) (.val y) (some e) := by
        intro x hx
        obtain ⟨k, y, -, rfl⟩ := (mem_elemConds (by omega)).1 hx
        exact ⟨k, y, rfl⟩
      constructor
      · apply mkAnd_plain
        · refine .inr (fun x hx => ?_)
          obtain ⟨k, y, rfl⟩ := hm x hx
          rfl
        · intro x hx
          obtain ⟨k, y, rfl⟩ := hm x hx
          rfl
      · intro t' h
        cases h with
        | and hx hi' =>
          obtain ⟨k, y, rfl⟩ := hm _ (S.sub hx)
          cases hi' with
          | table => exact ht
          | column => exact noSemi_suffix hc k
          | datatype => exact noSemi_yml he

theorem expandConds_mem (S : PySet (Cell Y)) : ∀ {cs ds : List (Cond (Cell Y))}, expandConds S cs = .ok ds → ds.length = cs.length ∧ ∀ d ∈ ds, ∃ c ∈ cs, expandCond S c = .ok d
  | [], ds, h => by
    rw [expandConds] at h
    cases h
    simp
  | c :: cs, ds, h => by
    rw [expandConds] at h
    split at h
    · cases h
    · rename_i d e
      split at h
      · cases h
      · rename_i ds' e'
        cases h
        have := expandConds_mem S e'
        refine ⟨by simp [this.1], ?_⟩
        intro x hx
        rcases List.mem_cons.1 hx with rfl | hx
        · exact ⟨c, List.mem_cons_self, e⟩
        · obtain ⟨y, hy, e2⟩ := this.2 x hx
          exact ⟨y, List.mem_cons_of_mem _ hy, e2⟩

theorem expand_flat (S : PySet (Cell Y)) {cs : List (Cond (Cell Y))} (h : ∀ c ∈ cs, GoodEq c) :
    ∃ d, expandCond S (mkAnd S cs) = .ok d ∧ (top (some d)).length ≤ cs.length ∧ (∀ x ∈ top (some d), x.plain = true) ∧ (∀ t, Inside t (.cond d) → NoSemi t) ∧
      ∀ row, d.holds row ↔ ∀ c ∈ cs, Means row c := by
  have hf : FitsAll (S.items cs) := (fitsAll_iff _).2 (fun c hc => (expandEq_ok S (h c (S.sub hc))).1)
  obtain ⟨ds, e, hm⟩ := expandConds_ok S (S.items cs) hf
  have hd := expandConds_mem S e
  have hx : ∀ x ∈ S.items ds, x.plain = true ∧ ∀ t, Inside t (.cond x) → NoSemi t := by
    intro x hx
    obtain ⟨c, hc, e⟩ := hd.2 x (S.sub hx)
    exact (expandEq_ok S (h c (S.sub hc))).2 x e
  refine ⟨mkAnd S ds, ?_, ?_, ?_, ?_, ?_⟩
  · rw [mkAnd, expandCond, e]
  · have h1 := S.length_le ds
    have h2 := S.length_le cs
    show (S.items ds).length ≤ _
    omega
  · exact fun x hx' => (hx x hx').1
  · intro t ht
    cases ht with
    | and hm' hi => exact (hx _ hm').2 t hi
  · intro row
    rw [mkAnd_holds, ← holdsL_iff, hm row, ← mkAnd_means S row cs, mkAnd, Means]

end Osp.Stmt
