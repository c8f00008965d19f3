import Verif.Setup.Props
/-!
# Clearing the database, datatypes of YAML ontologies (C91): theorems
-/
namespace Osp.Setup
open Osp.Sql Osp.Stmt

/-! ### datatypes of ontologies -/

theorem inCuba_custom (t : Text) : inCuba (Yaml.strPrefix ++ t) = true ∧ inCuba (Yaml.vecPrefix ++ t) = true := by
  have e1 : Yaml.strPrefix = cuba ++ "_datatypes/STRING-".toList := by decide +kernel
  have e2 : Yaml.vecPrefix = cuba ++ "_datatypes/VECTOR-".toList := by decide +kernel
  unfold inCuba
  constructor
  · rw [e1, List.append_assoc, isPrefixOf_append_self]
    simp only [List.drop_left, isPrefixOf_append_self, Bool.true_and, Bool.or_true, Bool.true_or]
  · rw [e2, List.append_assoc, isPrefixOf_append_self]
    simp only [List.drop_left, isPrefixOf_append_self, Bool.true_and, Bool.or_true]

/-- **C91.** Every datatype that means something in a YAML ontology (except `UUID`) has a table with columns for its values. -/
theorem yaml_supported {y iri : Text} {c : Yaml.Conv} (h : Yaml.Meaning y c) (hu : y ≠ "UUID".toList) (hi : Yaml.getRdflib y = .ok (some iri)) :
    (∃ cols, Supp iri cols) ∧ (iri ∈ standardTypes ∨ iri ∈ customDatatypes [iri]) := by
  have custom : inCuba iri = true → iri ∈ customDatatypes [iri] := fun hb => List.mem_filter.2 ⟨List.mem_cons_self, hb⟩
  have vec : ∀ (b : Yaml.Basic) (ns : List Text), ns ≠ [] → iri = Yaml.vectorIri b (ns.map Yaml.value) → (∃ cols, Supp iri cols) ∧ (iri ∈ standardTypes ∨ iri ∈ customDatatypes [iri]) := by
    rintro b ns hne rfl
    have e : Yaml.vectorIri b (ns.map Yaml.value) = vecIri b.name (ns.map (fun n => digitsValue n 0)) := by
      unfold Yaml.vectorIri vecIri
      rw [show Yaml.vecPrefix = vecPrefix from by decide +kernel, List.append_assoc, List.append_assoc, List.append_assoc, List.map_map, List.map_map]
      congr 3
    refine ⟨?_, Or.inr (custom ?_)⟩
    · rw [e]
      have hs : ns.map (fun n => digitsValue n 0) ≠ [] := fun h => hne (List.map_eq_nil_iff.1 h)
      cases b with
      | bool => exact ⟨_, .vector .bool hs⟩
      | int => exact ⟨_, .vector .int hs⟩
      | float => exact ⟨_, .vector .float hs⟩
      | string => exact ⟨_, .vector .string hs⟩
      | uuid => exact ⟨_, .vector .uuid hs⟩
    · unfold Yaml.vectorIri
      rw [List.append_assoc, List.append_assoc]
      exact (inCuba_custom _).2
  obtain ⟨iri', h1, h2⟩ := Yaml.datatype_roundtrip h
  rw [hi] at h1
  cases h1
  cases h with
  | basic b =>
    cases b with
    | bool => cases (show iri = Yaml.Basic.bool.iri from by cases hi; rfl); exact ⟨⟨_, .boolean⟩, Or.inl (by decide +kernel)⟩
    | int => cases (show iri = Yaml.Basic.int.iri from by cases hi; rfl); exact ⟨⟨_, .integer⟩, Or.inl (by decide +kernel)⟩
    | float => cases (show iri = Yaml.Basic.float.iri from by cases hi; rfl); exact ⟨⟨_, .float⟩, Or.inl (by decide +kernel)⟩
    | string => cases (show iri = Yaml.Basic.string.iri from by cases hi; rfl); exact ⟨⟨_, .string⟩, Or.inl (by decide +kernel)⟩
    | uuid => exact absurd rfl hu
  | @string n hn =>
    have h0 : Yaml.basicOf ("STRING:".toList ++ n) = none := Yaml.basicOf_colon (List.mem_append.2 (Or.inl (by decide)))
    have h1 : splitOn ':' ("STRING:".toList ++ n) = ["STRING".toList, n] := by
      have := Yaml.split_sizes (a := "STRING".toList) (by decide) (ns := [n]) (by simpa using hn)
      rw [← this]
      simp [Yaml.sizes]
    have e : iri = Yaml.strPrefix ++ dec (digitsValue n 0) := by
      unfold Yaml.getRdflib at hi
      rw [h0, h1] at hi
      simp only [if_neg (show ¬ "STRING".toList = "VECTOR".toList by decide), if_true, Yaml.pyInt_digits hn] at hi
      cases hi
      rw [Yaml.intStr_value]
    subst e
    refine ⟨⟨[("o".toList, some .text)], ?_⟩, Or.inr (custom (inCuba_custom _).1)⟩
    rw [show Yaml.strPrefix = "http://www.osp-core.com/cuba#_datatypes/STRING-".toList from by decide +kernel]
    exact .limited _ (noSemi_dec _)
  | @floats ns hne hns =>
    refine vec .float ns hne ?_
    cases ns with
    | nil => exact absurd rfl hne
    | cons n ns =>
      have h0 : Yaml.basicOf ("VECTOR".toList ++ Yaml.sizes (n :: ns)) = none := Yaml.basicOf_colon (List.mem_append.2 (Or.inr (by rw [Yaml.sizes_cons]; exact List.mem_cons_self)))
      unfold Yaml.getRdflib at hi
      rw [h0, Yaml.split_sizes (by decide) hns] at hi
      simp only [if_true, Yaml.vectorArgs, Yaml.basicOf_digits (hns n List.mem_cons_self), Yaml.ints_digits hns] at hi
      cases hi
      rfl
  | @vector b ns hne hns =>
    refine vec b ns hne ?_
    have h1 : splitOn ':' ("VECTOR:".toList ++ b.name ++ Yaml.sizes ns) = "VECTOR".toList :: b.name :: ns := by
      rw [← Yaml.split_sizes (a := b.name) (Yaml.name_no_colon b).1 hns, ← splitOn_append ':' "VECTOR".toList _ (by decide)]
      rfl
    have h0 : Yaml.basicOf ("VECTOR:".toList ++ b.name ++ Yaml.sizes ns) = none := Yaml.basicOf_colon (by rw [List.append_assoc]; exact List.mem_append.2 (Or.inl (by decide)))
    unfold Yaml.getRdflib at hi
    rw [h0, h1] at hi
    simp only [if_true, Yaml.vectorArgs, Yaml.basicOf_name, Yaml.ints_digits hns] at hi
    cases hi
    rfl

theorem createData_error (maxCols : Nat) {dt : Text} (hbad : ∀ t db, dataTableName dt = .ok t → ∃ e, (doCreate maxCols (dataDecl t dt) db).1 = .error e) :
    ∀ (l : List Text), dt ∈ l → ∀ db, ∃ e, (createData maxCols l db).1 = .error e
  | [], h, _ => (nomatch h)
  | x :: l, h, db => by
    rw [createData]
    cases hx : dataTableName x with
    | error e => exact ⟨e, rfl⟩
    | ok t =>
      simp only
      rcases hd : doCreate maxCols (dataDecl t x) db with ⟨r, db1⟩
      cases r with
      | error e => exact ⟨e, rfl⟩
      | ok u =>
        simp only
        rcases List.mem_cons.1 h with rfl | h
        · obtain ⟨e, he⟩ := hbad t db hx
          rw [hd] at he
          cases he
        · exact createData_error maxCols hbad l h db1

/-- **C91.** Finding: a vector without sizes, which the validation of YAML ontologies lets through, makes it impossible to open an SQL session on any database. -/
theorem shapeless_vector_fails (maxCols : Nat) (S : SetOrder) {declared : List Text} {b : Yaml.Basic} (h : Yaml.vectorIri b [] ∈ declared) (db : Db) :
    ∃ e, (initDb maxCols (.ok ()) S declared db).1 = .error e := by
  unfold initDb
  simp only
  rcases createAll maxCols [nsDecl, cudsDecl, entitiesDecl, typesDecl, relsDecl] db with ⟨r, db1⟩
  cases r with
  | error e => exact ⟨e, rfl⟩
  | ok u =>
    refine createData_error maxCols (dt := Yaml.vectorIri b []) ?_ _ ?_ db1
    · intro t db ht
      have e : expandNames (dataDts (Yaml.vectorIri b [])) ["s".toList, "p".toList, "o".toList] [] (dataDts (Yaml.vectorIri b [])) = .error .valueError := by
        have hv : isVec (Yaml.vectorIri b []) = true := by cases b <;> decide +kernel
        have hx : expandedCols "o".toList (Yaml.vectorIri b []) = .error .valueError := by
          unfold expandedCols
          rw [hv, show parseVecIri (Yaml.vectorIri b []) = .error .valueError from by cases b <;> decide +kernel]
          rfl
        rw [expandNames]
        simp only [lookup_data_s, Option.all_some, vec_integer, Bool.not_false, if_true]
        rw [expandNames]
        simp only [lookup_data_p, Option.all_some, vec_integer, Bool.not_false, if_true]
        rw [expandNames]
        simp only [lookup_data_o, Option.all_some, hv, Bool.not_true, Bool.false_eq_true, if_false, Option.getD_some, hx]
      refine ⟨.valueError, ?_⟩
      unfold doCreate
      simp only [dataDecl, e]
    · refine (S.mem _ _).2 (List.mem_append.2 (Or.inl (List.mem_filter.2 ⟨h, ?_⟩)))
      unfold Yaml.vectorIri
      rw [List.append_assoc, List.append_assoc]
      exact (inCuba_custom _).2

/-! ### the order of the tables -/

/-- **C91.** Every foreign key refers to the primary key of a table that is always there and was created before. -/
theorem foreign_keys {custom : List Text} {t : Table} {i : List (List Text)} (h : Required custom t i) : ∀ e ∈ t.fk,
    e.1 ∈ t.cols.map Prod.fst ∧ ∃ before after u, fixedTables = before ++ u :: after ∧ u.1.name = e.2.1 ∧ u.1.pk = [e.2.2] ∧ (t, i) ∉ before ∧ (t, i) ≠ u := by
  have hf : ∀ x ∈ fixedTables, ∀ e ∈ x.1.fk, e.1 ∈ x.1.cols.map Prod.fst ∧ ∃ n ∈ List.range 5, (fixedAt n).1.name = e.2.1 ∧ (fixedAt n).1.pk = [e.2.2] ∧ x ∉ fixedTables.take n ∧ x ≠ fixedAt n := by decide +kernel
  have hsplit : ∀ n ∈ List.range 5, fixedTables = fixedTables.take n ++ fixedAt n :: fixedTables.drop (n + 1) := by decide +kernel
  intro e he
  cases h with
  | fixed hm =>
    obtain ⟨h1, n, hn, h2, h3, h4, h5⟩ := hf _ hm e he
    exact ⟨h1, _, _, _, hsplit n hn, h2, h3, h4, h5⟩
  | @value dt name cols hd hc hn =>
    have hname : ∀ x ∈ fixedTables, x.1.pk ≠ [] := by decide +kernel
    have hne : ∀ x ∈ fixedTables, (valueTable name cols, [["s".toList, "p".toList]]) ≠ x := by
      rintro x hx rfl
      exact hname _ hx rfl
    have hmem : ∀ n ∈ List.range 5, fixedAt n ∈ fixedTables := by decide +kernel
    simp only [valueTable, List.mem_cons, List.not_mem_nil, or_false] at he
    rcases he with rfl | rfl
    · refine ⟨List.mem_cons_self, _, _, _, hsplit 1 (by decide), rfl, rfl, fun h => hne _ (List.mem_of_mem_take h) rfl, hne _ (hmem 1 (by decide))⟩
    · refine ⟨List.mem_cons_of_mem _ List.mem_cons_self, _, _, _, hsplit 2 (by decide), rfl, rfl, fun h => hne _ (List.mem_of_mem_take h) rfl, hne _ (hmem 2 (by decide))⟩

theorem data_prefix {dt name : Text} (h : dataTableName dt = .ok name) : tablePrefix.isPrefixOf name = true := by
  unfold dataTableName at h
  split at h
  · cases h; rw [List.append_assoc]; exact isPrefixOf_append_self _ _
  · split at h
    · cases h; rw [List.append_assoc]; exact isPrefixOf_append_self _ _
    · split at h
      · cases h; rw [List.append_assoc]; exact isPrefixOf_append_self _ _
      · split at h
        · cases h; rw [List.append_assoc]; exact isPrefixOf_append_self _ _
        · split at h
          · cases h; exact isPrefixOf_append_self _ _
          · cases h

/-- **C91.** The tables are emptied in an order that never breaks a foreign key: when a table is emptied, all tables of the session that refer to it have been emptied before. -/
theorem clear_order {custom : List Text} {t : Table} {i : List (List Text)} (h : Required custom t i) {db : Db} (hm : t ∈ db.tables) {e : Text × (Text × Text)} (he : e ∈ t.fk) {before after : List Text}
    (hs : clearOrder db = before ++ e.2.1 :: after) : t.name ∈ before := by
  have hrefs : e.2.1 ∈ [cudsTable, entitiesTable, nsTable] := by
    cases h with
    | fixed hf =>
      have : ∀ x ∈ fixedTables, ∀ e ∈ x.1.fk, e.2.1 ∈ [cudsTable, entitiesTable, nsTable] := by decide +kernel
      exact this _ hf e he
    | value =>
      simp only [valueTable, List.mem_cons, List.not_mem_nil, or_false] at he
      rcases he with rfl | rfl <;> decide +kernel
  have hno : ∀ x ∈ [cudsTable, entitiesTable, nsTable], tablePrefix.isPrefixOf x = false := by decide +kernel
  have hnot : e.2.1 ∉ (db.tables.map Table.name).filter (fun t => tablePrefix.isPrefixOf t) := by
    intro hx
    have := (List.mem_filter.1 hx).2
    rw [hno _ hrefs] at this
    cases this
  unfold clearOrder at hs
  generalize hA : (db.tables.map Table.name).filter (fun t => tablePrefix.isPrefixOf t) = A at hs hnot
  have hb : ∃ b', before = A ++ b' ∧ [typesTable, relsTable, cudsTable, entitiesTable, nsTable] = b' ++ e.2.1 :: after := by
    rcases List.append_eq_append_iff.1 hs with ⟨a', h1, h2⟩ | ⟨c', h1, h2⟩
    · exact ⟨a', h1, h2⟩
    · cases c' with
      | nil => exact ⟨[], by rw [h1]; simp, by simpa using h2.symm⟩
      | cons x c' =>
        rw [List.cons_append] at h2
        injection h2 with h2 h3
        exact absurd (by rw [h1, ← h2]; exact List.mem_append.2 (Or.inr List.mem_cons_self)) hnot
  obtain ⟨b', rfl, hb⟩ := hb
  cases h with
  | value _ _ hn =>
    refine List.mem_append.2 (Or.inl ?_)
    rw [← hA]
    exact List.mem_filter.2 ⟨List.mem_map.2 ⟨_, hm, rfl⟩, data_prefix hn⟩
  | fixed hf =>
    refine List.mem_append.2 (Or.inr ?_)
    have key : ∀ x ∈ fixedTables, ∀ e ∈ x.1.fk, ∀ n ∈ List.range 5, [typesTable, relsTable, cudsTable, entitiesTable, nsTable][n]? = some e.2.1 →
        x.1.name ∈ [typesTable, relsTable, cudsTable, entitiesTable, nsTable].take n := by decide +kernel
    have hlen : b'.length < 5 := by
      have := congrArg List.length hb
      rw [List.length_append, List.length_cons] at this
      have h5 : 5 = b'.length + (after.length + 1) := this
      omega
    have h1 := key _ hf e he b'.length (List.mem_range.2 hlen) (by rw [hb]; simp)
    rw [hb, List.take_left] at h1
    exact h1

/-! ### the session -/

theorem mem_deleteTriples (s : Cuds.Sess) (u : Cuds.Uid) : (∀ t, t ∈ (Cuds.deleteTriples s u).g ↔ t ∈ s.g ∧ t.s ≠ u) ∧ (∀ v, v ∈ (Cuds.deleteTriples s u).reg ↔ v ∈ s.reg ∧ v ≠ u) := by
  constructor
  · intro t
    simp only [Cuds.deleteTriples, Cuds.mem_gremove, Bool.eq_false_iff, ne_eq, Cuds.matchesPat_iff]
    simp
    exact fun _ => ⟨fun h e => h e.symm, fun h e => h e.symm⟩
  · intro v
    simp [Cuds.deleteTriples]

theorem foldl_deleteTriples : ∀ (l : List Cuds.Uid) (s : Cuds.Sess), (∀ t, t ∈ (l.foldl Cuds.deleteTriples s).g ↔ t ∈ s.g ∧ t.s ∉ l) ∧ (∀ v, v ∈ (l.foldl Cuds.deleteTriples s).reg ↔ v ∈ s.reg ∧ v ∉ l)
  | [], s => ⟨fun t => by simp, fun v => by simp⟩
  | u :: l, s => by
    obtain ⟨h1, h2⟩ := foldl_deleteTriples l (Cuds.deleteTriples s u)
    obtain ⟨h3, h4⟩ := mem_deleteTriples s u
    rw [List.foldl_cons]
    refine ⟨fun t => ?_, fun v => ?_⟩
    · rw [h1, h3, List.mem_cons, not_or, and_assoc]
    · rw [h2, h4, List.mem_cons, not_or, and_assoc]

/-- **C91.** Clearing empties the session: only the root is left, with its type and its attributes but without any relationship; nothing is left of the other objects. -/
theorem clearLocal_exact {O : Cuds.Onto} (hW : O.WF) {s : Cuds.Sess} (hs : Cuds.Reachable O s) {r : Cuds.Uid} (hr : s.root = some r) (hreg : r ∈ s.reg) :
    (clearLocal O s).res = .ok () ∧ (∀ t, t ∈ (clearLocal O s).st.g ↔ t ∈ s.g ∧ t.s = r ∧ ∀ x, t.o ≠ .cuds x) ∧ (∀ v, v ∈ (clearLocal O s).st.reg ↔ v = r) := by
  obtain ⟨A, h, hco⟩ := Cuds.reachable_view hW hs
  obtain ⟨l, hg, -, hl⟩ := Cuds.get_by_filter h hco r (some O.relationship) none
  have hsubj : ∀ t ∈ s.g, t.s ∈ s.reg := by
    intro t ht
    rw [h.reg]
    rcases h.kinds t ht with ⟨c, hp, ho⟩ | ⟨a, v, hp, ho⟩ | ⟨q, x, hp, ho⟩ <;> obtain ⟨ts, tp, t3⟩ := t <;> simp only at hp ho <;> subst hp ho
    · rw [(h.type _ _).1 ht]; exact fun h => nomatch h
    · exact h.owned _ _ (by rw [(h.attr _ _ _).1 ht]; exact fun h => nomatch h)
    · exact hco.src _ _ _ ((h.link _ _ _).1 ht)
  have hkind : ∀ t ∈ s.g, ∀ x, t.o = .cuds x → ∃ q, t = ⟨t.s, .rel q, .cuds x⟩ := by
    intro t ht x hx
    rcases h.kinds t ht with ⟨c, hp, ho⟩ | ⟨a, v, hp, ho⟩ | ⟨q, y, hp, ho⟩ <;> obtain ⟨ts, tp, t3⟩ := t <;> simp only at hp ho hx <;> subst hp ho
    · cases hx
    · cases hx
    · cases hx; exact ⟨q, rfl⟩
  -- the session after the relationships of the root are gone
  have mid : ∃ o : Cuds.Out Unit, (if l.map some ≠ [] then Cuds.remove O s r [] (some O.relationship) none else ⟨.ok (), s⟩) = o ∧ o.res = .ok () ∧ o.st.reg = s.reg ∧
      ∀ t, t.s = r → (t ∈ o.st.g ↔ t ∈ s.g ∧ ∀ x, t.o ≠ .cuds x) := by
    by_cases hne : l.map some ≠ []
    · rw [if_pos hne]
      obtain ⟨k1, k2, k3, -⟩ := Cuds.remove_exact hW hs r [] (some O.relationship) none (Or.inl rfl)
      refine ⟨_, rfl, k3 ?_, k2, ?_⟩
      · cases l with
        | nil => exact absurd rfl hne
        | cons x l =>
          obtain ⟨q, hq, -⟩ := (hl x).1 List.mem_cons_self
          exact ⟨q, x, (h.link _ _ _).2 hq, Or.inl rfl, fun r' e => by cases e; exact hW.top q, fun c e => by cases e⟩
      · intro t ht
        rw [k1]
        constructor
        · rintro ⟨h1, h2⟩
          refine ⟨h1, fun x hx => h2 ?_⟩
          obtain ⟨q, hq⟩ := hkind t h1 x hx
          rw [ht] at hq
          exact ⟨q, x, ⟨hq ▸ h1, Or.inl rfl, fun r' e => by cases e; exact hW.top q, fun c e => by cases e⟩, Or.inl hq⟩
        · rintro ⟨h1, h2⟩
          refine ⟨h1, ?_⟩
          rintro ⟨q, x, -, rfl | rfl⟩
          · exact h2 x rfl
          · exact h2 r rfl
    · rw [if_neg hne]
      refine ⟨_, rfl, rfl, rfl, fun t ht => ⟨fun h1 => ⟨h1, fun x hx => ?_⟩, fun h1 => h1.1⟩⟩
      obtain ⟨q, hq⟩ := hkind t h1 x hx
      have hx' : x ∈ l := (hl x).2 ⟨q, (h.link _ _ _).1 (by rw [← ht, ← hq]; exact h1), Or.inl rfl, fun r' e => by cases e; exact hW.top q, fun c e => by cases e⟩
      have : l ≠ [] := List.ne_nil_of_mem hx'
      exact hne (fun h => this (List.map_eq_nil_iff.1 h))
  obtain ⟨o, e, o1, o2, o3⟩ := mid
  have hsub : ∀ t ∈ o.st.g, t ∈ s.g := by
    intro t ht
    by_cases hne : l.map some ≠ []
    · rw [if_pos hne] at e
      subst e
      exact (((Cuds.remove_exact hW hs r [] (some O.relationship) none (Or.inl rfl)).1 t).1 ht).1
    · rw [if_neg hne] at e
      subst e
      exact ht
  have ec : clearLocal O s = ⟨.ok (), (o.st.reg.filter (fun u => u ≠ r)).foldl Cuds.deleteTriples o.st⟩ := by
    unfold clearLocal
    rw [hr]
    simp only
    rw [if_neg (fun hn => hn hreg), hg]
    simp only
    rw [e, o1]
  obtain ⟨f1, f2⟩ := foldl_deleteTriples (o.st.reg.filter (fun u => u ≠ r)) o.st
  rw [ec]
  refine ⟨rfl, fun t => ?_, fun v => ?_⟩
  · show t ∈ (List.foldl Cuds.deleteTriples o.st _).g ↔ _
    rw [f1]
    constructor
    · rintro ⟨h1, h2⟩
      have hts : t.s = r := by
        by_cases hts : t.s = r
        · exact hts
        · refine absurd (List.mem_filter.2 ⟨?_, by simpa using hts⟩) h2
          rw [o2]
          exact hsubj t (hsub t h1)
      obtain ⟨k1, k2⟩ := (o3 t hts).1 h1
      exact ⟨k1, hts, k2⟩
    · rintro ⟨h1, h2, h3⟩
      refine ⟨(o3 t h2).2 ⟨h1, h3⟩, fun hm => ?_⟩
      have := (List.mem_filter.1 hm).2
      simp [h2] at this
  · show v ∈ (List.foldl Cuds.deleteTriples o.st _).reg ↔ _
    rw [f2, o2]
    constructor
    · rintro ⟨h1, h2⟩
      by_cases hv : v = r
      · exact hv
      · exact absurd (List.mem_filter.2 ⟨h1, by simpa using hv⟩) h2
    · rintro rfl
      refine ⟨hreg, fun hm => ?_⟩
      have := (List.mem_filter.1 hm).2
      simp at this

/-! ### the database -/

variable {R : Type}

theorem clearTables_spec (fails : Text → Option PyErr) : ∀ (l : List Text) (rows : Rows R),
    ((clearTables fails l rows).1 = .ok () ↔ ∀ t ∈ l, fails t = none) ∧ ((∀ t ∈ l, fails t = none) → ∀ t, (clearTables fails l rows).2 t = if t ∈ l then [] else rows t)
  | [], rows => ⟨⟨fun _ t ht => (nomatch ht), fun _ => rfl⟩, fun _ t => by simp [clearTables]⟩
  | x :: l, rows => by
    rw [clearTables]
    cases hx : fails x with
    | some e =>
      refine ⟨⟨fun h => (nomatch h), fun h => ?_⟩, fun h => ?_⟩
      · have := h x List.mem_cons_self
        rw [hx] at this
        cases this
      · have := h x List.mem_cons_self
        rw [hx] at this
        cases this
    | none =>
      simp only
      obtain ⟨h1, h2⟩ := clearTables_spec fails l (fun t => if t = x then [] else rows t)
      refine ⟨h1.trans ⟨fun h t ht => ?_, fun h t ht => h t (List.mem_cons_of_mem _ ht)⟩, fun h t => ?_⟩
      · rcases List.mem_cons.1 ht with rfl | ht
        · exact hx
        · exact h t ht
      · rw [h2 (fun t ht => h t (List.mem_cons_of_mem _ ht))]
        by_cases hl : t ∈ l
        · rw [if_pos hl, if_pos (List.mem_cons_of_mem _ hl)]
        · rw [if_neg hl]
          by_cases he : t = x
          · rw [if_pos he, if_pos (by rw [he]; exact List.mem_cons_self)]
          · rw [if_neg he, if_neg (fun h => (List.mem_cons.1 h).elim he hl)]

/-- **C91.** Clearing a database that was initialised empties the tables of the session and nothing else: the five fixed tables and every table of values are empty, all other tables keep their rows; the tables themselves stay;
in the session only the root is left; nothing is pending. -/
theorem clear_exact {O : Cuds.Onto} (hW : O.WF) {maxCols : Nat} (S : SetOrder) {declared : List Text} {w : World R} (hs : Cuds.Reachable O w.local_) {r : Cuds.Uid} (hr : w.local_.root = some r)
    (hreg : r ∈ w.local_.reg) (hd : ∀ dt ∈ customDatatypes declared, ∃ cols, Supp dt cols) (hinit : ∀ t i, Required (customDatatypes declared) t i → ∃ u ∈ w.db.tables, u.name = t.name) :
    let o := clear O maxCols (fun _ => none) (.ok ()) S declared w
    o.1 = .ok () ∧ o.2.db.tables = w.db.tables ∧ o.2.pending = false ∧
    (∀ t, o.2.rows t = if t ∈ ["OSP_V1_NAMESPACES".toList, "OSP_V1_CUDS".toList, "OSP_V1_ENTITIES".toList, "OSP_V1_TYPES".toList, "OSP_V1_RELATIONS".toList] ∨
        ((∃ u ∈ w.db.tables, u.name = t) ∧ "DATA_V1_".toList <+: t) then [] else w.rows t) ∧
    (∀ t, t ∈ o.2.local_.g ↔ t ∈ w.local_.g ∧ t.s = r ∧ ∀ x, t.o ≠ .cuds x) ∧ (∀ v, v ∈ o.2.local_.reg ↔ v = r) := by
  intro o
  obtain ⟨k1, k2, k3⟩ := clearLocal_exact hW hs hr hreg
  obtain ⟨c1, c2⟩ := clearTables_spec (R := R) (fun _ => none) (clearOrder w.db) w.rows
  have c1 := c1.2 (fun _ _ => rfl)
  have c2 := c2 (fun _ _ => rfl)
  have i1 := (init_ok_iff (maxCols := maxCols) S hd w.db).2 (fun t i h => Or.inl (hinit t i h))
  obtain ⟨new, i2, -, i3⟩ := init_tables_partial S hd w.db i1
  have hnew : new = [] := by
    cases new with
    | nil => rfl
    | cons t l =>
      obtain ⟨⟨i, h⟩, hn⟩ := (i3 t).1 List.mem_cons_self
      obtain ⟨u, hu, e⟩ := hinit t i h
      exact absurd e (hn u hu)
  rw [hnew, List.append_nil] at i2
  have eo : o = (.ok (), ⟨(clearLocal O w.local_).st, false, (initDb maxCols (.ok ()) S declared w.db).2, (clearTables (fun _ => none) (clearOrder w.db) w.rows).2⟩) := by
    show clear O maxCols (fun _ => none) (.ok ()) S declared w = _
    unfold clear
    simp only [k1]
    rcases hc : clearTables (fun _ => none) (clearOrder w.db) w.rows with ⟨a, b⟩
    rw [hc] at c1
    simp only at c1
    subst c1
    rcases hi : initDb maxCols (.ok ()) S declared w.db with ⟨a', b'⟩
    rw [hi] at i1
    simp only at i1
    subst i1
    rfl
  rw [eo]
  refine ⟨rfl, i2, rfl, fun t => ?_, k2, k3⟩
  show (clearTables (fun _ => none) (clearOrder w.db) w.rows).2 t = _
  rw [c2]
  have hiff : t ∈ clearOrder w.db ↔ t ∈ ["OSP_V1_NAMESPACES".toList, "OSP_V1_CUDS".toList, "OSP_V1_ENTITIES".toList, "OSP_V1_TYPES".toList, "OSP_V1_RELATIONS".toList] ∨
      ((∃ u ∈ w.db.tables, u.name = t) ∧ "DATA_V1_".toList <+: t) := by
    unfold clearOrder
    rw [List.mem_append, List.mem_filter, List.mem_map, List.isPrefixOf_iff_prefix, or_comm]
    have hperm : (t ∈ [typesTable, relsTable, cudsTable, entitiesTable, nsTable]) ↔
        t ∈ ["OSP_V1_NAMESPACES".toList, "OSP_V1_CUDS".toList, "OSP_V1_ENTITIES".toList, "OSP_V1_TYPES".toList, "OSP_V1_RELATIONS".toList] := by
      have p : ∀ x ∈ [typesTable, relsTable, cudsTable, entitiesTable, nsTable],
        x ∈ ["OSP_V1_NAMESPACES".toList, "OSP_V1_CUDS".toList, "OSP_V1_ENTITIES".toList, "OSP_V1_TYPES".toList, "OSP_V1_RELATIONS".toList] := by decide +kernel
      have q : ∀ x ∈ ["OSP_V1_NAMESPACES".toList, "OSP_V1_CUDS".toList, "OSP_V1_ENTITIES".toList, "OSP_V1_TYPES".toList, "OSP_V1_RELATIONS".toList],
        x ∈ [typesTable, relsTable, cudsTable, entitiesTable, nsTable] := by decide +kernel
      exact ⟨p t, q t⟩
    rw [hperm]
    exact Iff.rfl
  by_cases h : t ∈ clearOrder w.db
  · rw [if_pos h, if_pos (hiff.1 h)]
  · rw [if_neg h, if_neg (fun k => h (hiff.2 k))]

/-- **C91.** Whatever makes the clearing fail, the database is as before. -/
theorem clear_rolls_back (O : Cuds.Onto) (maxCols : Nat) (fails : Text → Option PyErr) (check : Except PyErr Unit) (S : SetOrder) (declared : List Text) (w : World R) {e : PyErr}
    (h : (clear O maxCols fails check S declared w).1 = .error e) :
    (clear O maxCols fails check S declared w).2.rows = w.rows ∧ (clear O maxCols fails check S declared w).2.db = w.db := by
  unfold clear at h ⊢
  simp only at h ⊢
  cases hl : (clearLocal O w.local_).res with
  | error e => exact ⟨rfl, rfl⟩
  | ok u =>
    rw [hl] at h
    simp only at h ⊢
    rcases hc : clearTables fails (clearOrder w.db) w.rows with ⟨a, b⟩
    cases a with
    | error e => exact ⟨rfl, rfl⟩
    | ok u =>
      rw [hc] at h
      simp only at h ⊢
      rcases hi : initDb maxCols check S declared w.db with ⟨a', b'⟩
      cases a' with
      | error e => exact ⟨rfl, rfl⟩
      | ok u =>
        rw [hi] at h
        cases h

/-- **C91.** Finding: if a table cannot be emptied, the database keeps its contents but the session has already forgotten everything, and nothing is pending: the session is no longer what the database contains. -/
theorem failed_clear_empties_session {O : Cuds.Onto} (hW : O.WF) (maxCols : Nat) (S : SetOrder) (declared : List Text) {w : World R} (hs : Cuds.Reachable O w.local_) {r : Cuds.Uid} (hr : w.local_.root = some r)
    (hreg : r ∈ w.local_.reg) {fails : Text → Option PyErr} (hf : ∃ t ∈ clearOrder w.db, fails t ≠ none) (check : Except PyErr Unit) :
    let o := clear O maxCols fails check S declared w
    (∃ e, o.1 = .error e) ∧ o.2.rows = w.rows ∧ o.2.pending = false ∧ ∀ v, v ∈ o.2.local_.reg ↔ v = r := by
  intro o
  obtain ⟨k1, k2, k3⟩ := clearLocal_exact hW hs hr hreg
  obtain ⟨c1, -⟩ := clearTables_spec (R := R) fails (clearOrder w.db) w.rows
  obtain ⟨t, ht, hft⟩ := hf
  rcases hc : clearTables fails (clearOrder w.db) w.rows with ⟨a, b⟩
  cases a with
  | ok u =>
    rw [hc] at c1
    exact absurd (c1.1 rfl t ht) hft
  | error e =>
    have eo : o = (.error e, { w with local_ := (clearLocal O w.local_).st, pending := false }) := by
      show clear O maxCols fails check S declared w = _
      unfold clear
      simp only [k1, hc]
    rw [eo]
    exact ⟨⟨e, rfl⟩, rfl, rfl, k3⟩

/-! ### statements -/

theorem foldl_index_sent (f : List Text → Text) (g : List Text → Text × Text × List Text) : ∀ (l : List (List Text)) (db : Db), (l.foldl (fun db i => db.index (f i) (g i)) db).sent = db.sent ++ l.map f
  | [], db => (List.append_nil _).symm
  | i :: l, db => by
    rw [List.foldl_cons, foldl_index_sent f g l]
    have : (db.index (f i) (g i)).sent = db.sent ++ [f i] := by
      unfold Db.index
      simp only
      split <;> rfl
    rw [this, List.append_assoc]
    rfl

/-- **C91.** The statements that are sent for the values of a datatype: one for the table and one for the index on subject and predicate. -/
theorem data_statements {maxCols : Nat} (db : Db) {t dt : Text} {cols : List (Text × Option Affinity)} (h : Supp dt cols) (ht : dataTableName dt = .ok t) (hfit : cols.length + 2 ≤ maxCols) :
    (doCreate maxCols (dataDecl t dt) db).2.sent = db.sent ++ [createText t (("s".toList, some .integer) :: ("p".toList, some .integer) :: cols) []
      [("s".toList, ("OSP_V1_CUDS".toList, "cuds_idx".toList)), ("p".toList, ("OSP_V1_ENTITIES".toList, "entity_idx".toList))], indexText t ["s".toList, "p".toList]] := by
  rw [create_data maxCols db h ht]
  unfold make Db.create
  simp only
  have hl : ¬ maxCols < (valueTable t cols).cols.length := by
    show ¬ maxCols < cols.length + 1 + 1
    omega
  rw [if_neg hl]
  split
  · rename_i h1
    split at h1 <;> cases h1
  · rename_i h1
    rw [foldl_index_sent]
    have : ∀ (c : Prop) [Decidable c] (a b d : Db), (if c then ((.ok (), a) : Except PyErr Unit × Db) else (.ok (), b)) = (.ok (), d) → a.sent = b.sent → d.sent = a.sent := by
      intro c _ a b d he hs
      split at he
      · cases he; rfl
      · cases he; exact hs.symm
    rw [this _ _ _ _ h1 rfl]
    simp only [List.append_assoc]
    rfl

end Osp.Setup
