import Verif.Setup.Spec
/-!
# Creating and clearing the tables of an SQL database (C91): theorems
-/
namespace Osp.Setup
open Osp.Sql Osp.Stmt

/-! ### dictionaries -/

theorem lookup_map_put (k : Text) (v : Option Text) (c : Text) : ∀ d : Dts, (∃ e ∈ d, e.1 = k) → List.lookup c (d.map (fun e => if e.1 = k then (k, v) else e)) = if c = k then some v else d.lookup c
  | [], h => by obtain ⟨e, he, -⟩ := h; cases he
  | (a, b) :: d, h => by
    rw [List.map_cons]
    by_cases ha : a = k
    · subst ha
      simp only [if_pos]
      rw [lookup_cons_ite, lookup_cons_ite]
      by_cases hc : c = a
      · rw [if_pos hc, if_pos hc]
      · rw [if_neg hc, if_neg hc, if_neg hc]
        by_cases hd : ∃ e ∈ d, e.1 = a
        · rw [lookup_map_put a v c d hd, if_neg hc]
        · congr 1
          exact ((List.map_congr_left (f := fun e : Text × Option Text => if e.1 = a then (a, v) else e) (g := id) (fun e he => if_neg (fun h => hd ⟨e, he, h⟩))).trans (List.map_id d)).symm ▸ rfl
    · simp only [if_neg ha]
      rw [lookup_cons_ite, lookup_cons_ite]
      have hd : ∃ e ∈ d, e.1 = k := by
        obtain ⟨e, he, hk⟩ := h
        rcases List.mem_cons.1 he with rfl | he
        · exact absurd hk ha
        · exact ⟨e, he, hk⟩
      rw [lookup_map_put k v c d hd]
      by_cases hc : c = a
      · have : c ≠ k := fun h => ha (hc ▸ h)
        rw [if_pos hc, if_neg this, if_pos hc]
      · rw [if_neg hc, if_neg hc]

theorem lookup_append_new (k : Text) (v : Option Text) (c : Text) : ∀ d : Dts, (¬ ∃ e ∈ d, e.1 = k) → List.lookup c (d ++ [(k, v)]) = if c = k then some v else d.lookup c
  | [], _ => by rw [List.nil_append, lookup_cons_ite]
  | (a, b) :: d, h => by
    rw [List.cons_append, lookup_cons_ite, lookup_cons_ite, lookup_append_new k v c d (fun ⟨e, he, hk⟩ => h ⟨e, List.mem_cons_of_mem _ he, hk⟩)]
    by_cases hc : c = a
    · have : c ≠ k := fun hk => h ⟨(a, b), List.mem_cons_self, by rw [← hk, hc]⟩
      rw [if_pos hc, if_neg this, if_pos hc]
    · rw [if_neg hc, if_neg hc]

theorem lookup_put (d : Dts) (k : Text) (v : Option Text) (c : Text) : List.lookup c (d.put k v) = if c = k then some v else d.lookup c := by
  unfold Dts.put
  by_cases h : ∃ e ∈ d, e.1 = k
  · rw [if_pos (by simpa using h), lookup_map_put k v c d h]
  · rw [if_neg (by simpa using h), lookup_append_new k v c d h]

theorem lookup_foldl_put (v : Option Text) (c : Text) : ∀ (cols : List Text) (d : Dts), List.lookup c (cols.foldl (fun (d : Dts) k => d.put k v) d) = if c ∈ cols then some v else d.lookup c
  | [], d => by simp
  | k :: cols, d => by
    rw [List.foldl_cons, lookup_foldl_put v c cols, lookup_put]
    by_cases h1 : c ∈ cols
    · rw [if_pos h1, if_pos (List.mem_cons_of_mem _ h1)]
    · rw [if_neg h1]
      by_cases h2 : c = k
      · rw [if_pos h2, if_pos (by rw [h2]; exact List.mem_cons_self)]
      · rw [if_neg h2, if_neg (fun h => (List.mem_cons.1 h).elim h2 h1)]

theorem colTypes_ok (ds : Dts) : ∀ cols : List (Text × Affinity), (∀ x ∈ cols, ∃ dt, ds.lookup x.1 = some (some dt) ∧ sqliteType (some (elemIri dt)) = .ok x.2) →
    colTypes ds (cols.map Prod.fst) = .ok (cols.map (fun x => (x.1, some x.2)))
  | [], _ => rfl
  | (c, a) :: cols, h => by
    obtain ⟨dt, h1, h2⟩ := h (c, a) List.mem_cons_self
    rw [List.map_cons, colTypes, colType]
    simp only [h1, Option.map_some, h2, colTypes_ok ds cols (fun x hx => h x (List.mem_cons_of_mem _ hx)), List.map_cons]

/-! ### one table -/

/-- Creating the table and its indexes, once the statement is known. Proof device; nothing in /repo. -/
def make (maxCols : Nat) (t : Table) (idx : List (List Text)) (db : Db) : Except PyErr Unit × Db :=
  match db.create maxCols (createText t.name t.cols t.pk t.fk) t with
  | (.error e, db) => (.error e, db)
  | (.ok _, db) => (.ok (), idx.foldl (fun db i => db.index (indexText t.name i) (indexName t.name i, t.name, i)) db)

theorem declItems_ok {d : Decl} {cs : List Text} {ds : Dts} (h1 : NoSemi d.table) (h2 : ∀ c ∈ cs, NoSemi c) (h3 : CleanDts ds) (h4 : ∀ c ∈ d.pk, NoSemi c)
    (h5 : ∀ e ∈ d.fk, NoSemi e.1 ∧ NoSemi e.2.1 ∧ NoSemi e.2.2) (h6 : ∀ i ∈ d.indexes, ∀ c ∈ i, NoSemi c) : checkArgs (declItems d cs ds) = .ok () := by
  apply check_ok
  have str : ∀ {t : Text}, NoSemi t → (∀ u, Inside u (.str t : Item Unit) → ';' ∉ u) ∧ ¬ Odd (.str t : Item Unit) := fun h => ⟨fun u hu => by cases hu; exact h, fun ho => nomatch ho⟩
  have lst : ∀ {l : List (Item Unit)}, (∀ x ∈ l, (∀ u, Inside u x → ';' ∉ u) ∧ ¬ Odd x) → (∀ u, Inside u (.list l : Item Unit) → ';' ∉ u) ∧ ¬ Odd (.list l : Item Unit) := by
    intro l h
    constructor
    · intro u hu
      cases hu with
      | list hm hi => exact (h _ hm).1 _ hi
    · intro ho
      cases ho with
      | list hm hi => exact (h _ hm).2 hi
  have dct : ∀ {l : List (Item Unit × Item Unit)}, (∀ x ∈ l, ((∀ u, Inside u x.1 → ';' ∉ u) ∧ ¬ Odd x.1) ∧ ((∀ u, Inside u x.2 → ';' ∉ u) ∧ ¬ Odd x.2)) →
      (∀ u, Inside u (.dict l : Item Unit) → ';' ∉ u) ∧ ¬ Odd (.dict l : Item Unit) := by
    intro l h
    constructor
    · intro u hu
      cases hu with
      | key hm hi => exact (h _ hm).1.1 _ hi
      | value hm hi => exact (h _ hm).2.1 _ hi
    · intro ho
      cases ho with
      | key hm hi => exact (h _ hm).1.2 hi
      | value hm hi => exact (h _ hm).2.2 hi
  intro x hx
  simp only [declItems, List.mem_cons, List.not_mem_nil, or_false] at hx
  rcases hx with rfl | rfl | rfl | rfl | rfl | rfl
  · exact str h1
  · exact lst (fun x hx => by obtain ⟨c, hc, rfl⟩ := List.mem_map.1 hx; exact str (h2 c hc))
  · refine dct (fun x hx => ?_)
    obtain ⟨e, he, rfl⟩ := List.mem_map.1 hx
    refine ⟨str (h3 e he).1, ?_⟩
    show (∀ u, Inside u (optItem e.2 : Item Unit) → ';' ∉ u) ∧ ¬ Odd (optItem e.2 : Item Unit)
    cases hv : e.2 with
    | none => exact ⟨fun u hu => (nomatch hu), fun ho => (nomatch ho)⟩
    | some i => exact str ((h3 e he).2 i hv)
  · exact lst (fun x hx => by obtain ⟨c, hc, rfl⟩ := List.mem_map.1 hx; exact str (h4 c hc))
  · refine dct (fun x hx => ?_)
    obtain ⟨e, he, rfl⟩ := List.mem_map.1 hx
    obtain ⟨k1, k2, k3⟩ := h5 e he
    refine ⟨str k1, lst (fun x hx => ?_)⟩
    simp only [List.mem_cons, List.not_mem_nil, or_false] at hx
    rcases hx with rfl | rfl
    · exact str k2
    · exact str k3
  · exact lst (fun x hx => by
      obtain ⟨i, hi, rfl⟩ := List.mem_map.1 hx
      exact lst (fun y hy => by obtain ⟨c, hc, rfl⟩ := List.mem_map.1 hy; exact str (h6 i hi c hc)))

theorem doCreate_make (maxCols : Nat) {d : Decl} {cs : List Text} {ds : Dts} {cols : List (Text × Option Affinity)} (hx : expandNames d.dts d.columns [] d.dts = .ok (cs, ds))
    (ht : colTypes ds cs = .ok cols) (hc : checkArgs (declItems d cs ds) = .ok ()) (db : Db) :
    doCreate maxCols d db = make maxCols ⟨d.table, cols, d.pk, d.fk⟩ d.indexes db := by
  unfold doCreate
  rw [hx]
  simp only [hc, dbCreate, ht, make]
  rcases hh : Db.create maxCols db (createText d.table cols d.pk d.fk) ⟨d.table, cols, d.pk, d.fk⟩ with ⟨r, db'⟩
  cases r <;> rfl

theorem noSemi_setup : ∀ t ∈ [nsTable, cudsTable, entitiesTable, typesTable, relsTable, "ns_idx".toList, "namespace".toList, "cuds_idx".toList, "uid".toList, "entity_idx".toList, "name".toList, "s".toList,
    "p".toList, "o".toList, "UUID".toList, xsdInteger, xsdString], NoSemi t := by
  unfold NoSemi
  decide +kernel

theorem fixed_create (maxCols : Nat) (db : Db) {d : Decl} {cols : List (Text × Affinity)} (hcl : CleanDts d.dts)
    (hcols : ∀ c ∈ d.columns, NoSemi c ∧ ∃ i, d.dts.lookup c = some (some i) ∧ GoodDt i ∧ NoSemi i)
    (hx : ∃ ds, expandNames d.dts d.columns [] d.dts = .ok (cols.map Prod.fst, ds) ∧ ∀ x ∈ cols, ∃ dt, ds.lookup x.1 = some (some dt) ∧ sqliteType (some (elemIri dt)) = .ok x.2)
    (h1 : NoSemi d.table) (h4 : ∀ c ∈ d.pk, NoSemi c)
    (h5 : ∀ e ∈ d.fk, NoSemi e.1 ∧ NoSemi e.2.1 ∧ NoSemi e.2.2) (h6 : ∀ i ∈ d.indexes, ∀ c ∈ i, NoSemi c) :
    doCreate maxCols d db = make maxCols ⟨d.table, cols.map (fun x => (x.1, some x.2)), d.pk, d.fk⟩ d.indexes db := by
  obtain ⟨ds, e1, e2⟩ := hx
  obtain ⟨ds', e3, e4⟩ := expandNames_ok d.dts hcl d.columns [] d.dts hcols hcl
  rw [e1] at e3
  have e7 := Except.ok.inj e3
  have e5 : ds = ds' := congrArg Prod.snd e7
  have e6 : cols.map Prod.fst = d.columns.flatMap (fun c => colsOf c ((d.dts.lookup c).join.getD [])) := (congrArg Prod.fst e7).trans (List.nil_append _)
  subst e5
  refine doCreate_make maxCols e1 (colTypes_ok ds cols e2) (declItems_ok h1 ?_ e4 h4 h5 h6) db
  intro c hc
  rw [e6] at hc
  obtain ⟨x, hx, hc⟩ := List.mem_flatMap.1 hc
  exact noSemi_colsOf (hcols x hx).1 hc

theorem expandNames_scalar (d0 : Dts) : ∀ (cs out : List Text) (d : Dts), (∀ c ∈ cs, ∃ i, d0.lookup c = some (some i) ∧ isVec i = false) → (∀ c, d.lookup c = d0.lookup c) →
    ∃ d', expandNames d0 cs out d = .ok (out ++ cs, d') ∧ ∀ c, d'.lookup c = d0.lookup c
  | [], out, d, _, hd => ⟨d, by rw [expandNames, List.append_nil], hd⟩
  | c :: cs, out, d, h, hd => by
    obtain ⟨i, h1, h2⟩ := h c List.mem_cons_self
    obtain ⟨d', e1, e2⟩ := expandNames_scalar d0 cs (out ++ [c]) (d.put c (some i)) (fun x hx => h x (List.mem_cons_of_mem _ hx)) (by
      intro x
      rw [lookup_put, hd]
      by_cases hx : x = c
      · rw [if_pos hx, hx, h1]
      · rw [if_neg hx])
    refine ⟨d', ?_, e2⟩
    rw [expandNames]
    simp only [h1, Option.all_some, h2, Bool.not_false, if_true, e1, List.append_assoc, List.singleton_append]

/-- A table without vectors. Proof device; nothing in /repo. -/
theorem scalar_create (maxCols : Nat) (db : Db) {d : Decl} {cols : List (Text × Affinity)} (hn : cols.map Prod.fst = d.columns) (hcl : CleanDts d.dts)
    (hcols : ∀ x ∈ cols, NoSemi x.1 ∧ ∃ i, d.dts.lookup x.1 = some (some i) ∧ isVec i = false ∧ NoSemi i ∧ sqliteType (some (elemIri i)) = .ok x.2)
    (h1 : NoSemi d.table) (h4 : ∀ c ∈ d.pk, NoSemi c)
    (h5 : ∀ e ∈ d.fk, NoSemi e.1 ∧ NoSemi e.2.1 ∧ NoSemi e.2.2) (h6 : ∀ i ∈ d.indexes, ∀ c ∈ i, NoSemi c) :
    doCreate maxCols d db = make maxCols ⟨d.table, cols.map (fun x => (x.1, some x.2)), d.pk, d.fk⟩ d.indexes db := by
  have hm : ∀ c ∈ d.columns, ∃ x ∈ cols, x.1 = c := by
    intro c hc
    rw [← hn] at hc
    obtain ⟨x, hx, rfl⟩ := List.mem_map.1 hc
    exact ⟨x, hx, rfl⟩
  refine fixed_create maxCols db hcl ?_ ?_ h1 h4 h5 h6
  · intro c hc
    obtain ⟨x, hx, rfl⟩ := hm c hc
    obtain ⟨k1, i, k2, k3, k4, -⟩ := hcols x hx
    exact ⟨k1, i, k2, Or.inl k3, k4⟩
  · obtain ⟨ds, e1, e2⟩ := expandNames_scalar d.dts d.columns [] d.dts (by
      intro c hc
      obtain ⟨x, hx, rfl⟩ := hm c hc
      obtain ⟨-, i, k2, k3, -⟩ := hcols x hx
      exact ⟨i, k2, k3⟩) (fun _ => rfl)
    refine ⟨ds, by rw [e1, hn]; rfl, ?_⟩
    intro x hx
    obtain ⟨-, i, k2, -, -, k5⟩ := hcols x hx
    exact ⟨i, by rw [e2]; exact k2, k5⟩

/-! ### the fixed tables -/

theorem type_integer : sqliteType (some (elemIri xsdInteger)) = .ok .integer := by decide +kernel
theorem type_string : sqliteType (some (elemIri xsdString)) = .ok .real := by decide +kernel
theorem type_uuid : sqliteType (some (elemIri "UUID".toList)) = .ok .text := by decide +kernel
theorem vec_integer : isVec xsdInteger = false := by decide +kernel
theorem vec_string : isVec xsdString = false := by decide +kernel
theorem vec_uuid : isVec "UUID".toList = false := by decide +kernel

theorem cleanDts_types : CleanDts typesDts := by
  intro e he
  simp only [typesDts, List.mem_cons, List.not_mem_nil, or_false] at he
  rcases he with rfl | rfl <;> exact ⟨noSemi_setup _ (by simp), fun i h => by cases h; exact noSemi_setup _ (by simp)⟩

theorem cleanDts_rels : CleanDts relsDts := by
  intro e he
  simp only [relsDts, List.mem_cons, List.not_mem_nil, or_false] at he
  rcases he with rfl | rfl | rfl <;> exact ⟨noSemi_setup _ (by simp), fun i h => by cases h; exact noSemi_setup _ (by simp)⟩

theorem cleanDts_data {dt : Text} (h : NoSemi dt) : CleanDts (dataDts dt) := by
  intro e he
  simp only [dataDts, List.mem_cons, List.not_mem_nil, or_false] at he
  rcases he with rfl | rfl | rfl
  · exact ⟨noSemi_setup _ (by simp), fun i h' => by cases h'; exact h⟩
  all_goals exact ⟨noSemi_setup _ (by simp), fun i h => by cases h; exact noSemi_setup _ (by simp)⟩

/-- The first table of the specification. Proof device; nothing in /repo. -/
def fixedAt (n : Nat) : Table × List (List Text) := fixedTables.getD n (⟨[], [], [], []⟩, [])

theorem create_ns (maxCols : Nat) (db : Db) : doCreate maxCols nsDecl db = make maxCols (fixedAt 0).1 (fixedAt 0).2 db := by
  have ns := noSemi_setup
  refine scalar_create maxCols db (d := nsDecl) (cols := [("ns_idx".toList, .integer), ("namespace".toList, .real)]) rfl cleanDts_ns ?_ (ns _ (by simp [nsDecl]))
    (by unfold NoSemi; decide +kernel) (by unfold NoSemi; decide +kernel) (by unfold NoSemi; decide +kernel)
  simp only [List.mem_cons, List.not_mem_nil, or_false, forall_eq_or_imp, forall_eq]
  exact ⟨⟨ns _ (by simp), xsdInteger, rfl, vec_integer, ns _ (by simp), type_integer⟩, ⟨ns _ (by simp), xsdString, rfl, vec_string, ns _ (by simp), type_string⟩⟩

theorem create_cuds (maxCols : Nat) (db : Db) : doCreate maxCols cudsDecl db = make maxCols (fixedAt 1).1 (fixedAt 1).2 db := by
  have ns := noSemi_setup
  refine scalar_create maxCols db (d := cudsDecl) (cols := [("cuds_idx".toList, .integer), ("uid".toList, .text)]) rfl cleanDts_cuds ?_ (ns _ (by simp [cudsDecl]))
    (by unfold NoSemi; decide +kernel) (by unfold NoSemi; decide +kernel) (by unfold NoSemi; decide +kernel)
  simp only [List.mem_cons, List.not_mem_nil, or_false, forall_eq_or_imp, forall_eq]
  exact ⟨⟨ns _ (by simp), xsdInteger, rfl, vec_integer, ns _ (by simp), type_integer⟩, ⟨ns _ (by simp), "UUID".toList, rfl, vec_uuid, ns _ (by simp), type_uuid⟩⟩

theorem create_entities (maxCols : Nat) (db : Db) : doCreate maxCols entitiesDecl db = make maxCols (fixedAt 2).1 (fixedAt 2).2 db := by
  have ns := noSemi_setup
  refine scalar_create maxCols db (d := entitiesDecl) (cols := [("entity_idx".toList, .integer), ("ns_idx".toList, .integer), ("name".toList, .real)]) rfl cleanDts_ents ?_ (ns _ (by simp [entitiesDecl]))
    (by unfold NoSemi; decide +kernel) (by unfold NoSemi; decide +kernel) (by unfold NoSemi; decide +kernel)
  simp only [List.mem_cons, List.not_mem_nil, or_false, forall_eq_or_imp, forall_eq]
  exact ⟨⟨ns _ (by simp), xsdInteger, rfl, vec_integer, ns _ (by simp), type_integer⟩, ⟨ns _ (by simp), xsdInteger, rfl, vec_integer, ns _ (by simp), type_integer⟩,
    ⟨ns _ (by simp), xsdString, rfl, vec_string, ns _ (by simp), type_string⟩⟩

theorem create_types (maxCols : Nat) (db : Db) : doCreate maxCols typesDecl db = make maxCols (fixedAt 3).1 (fixedAt 3).2 db := by
  have ns := noSemi_setup
  refine scalar_create maxCols db (d := typesDecl) (cols := [("s".toList, .integer), ("o".toList, .integer)]) rfl cleanDts_types ?_ (ns _ (by simp [typesDecl]))
    (by unfold NoSemi; decide +kernel) (by unfold NoSemi; decide +kernel) (by unfold NoSemi; decide +kernel)
  simp only [List.mem_cons, List.not_mem_nil, or_false, forall_eq_or_imp, forall_eq]
  exact ⟨⟨ns _ (by simp), xsdInteger, rfl, vec_integer, ns _ (by simp), type_integer⟩, ⟨ns _ (by simp), xsdInteger, rfl, vec_integer, ns _ (by simp), type_integer⟩⟩

theorem create_rels (maxCols : Nat) (db : Db) : doCreate maxCols relsDecl db = make maxCols (fixedAt 4).1 (fixedAt 4).2 db := by
  have ns := noSemi_setup
  refine scalar_create maxCols db (d := relsDecl) (cols := [("s".toList, .integer), ("p".toList, .integer), ("o".toList, .integer)]) rfl cleanDts_rels ?_ (ns _ (by simp [relsDecl]))
    (by unfold NoSemi; decide +kernel) (by unfold NoSemi; decide +kernel) (by unfold NoSemi; decide +kernel)
  simp only [List.mem_cons, List.not_mem_nil, or_false, forall_eq_or_imp, forall_eq]
  exact ⟨⟨ns _ (by simp), xsdInteger, rfl, vec_integer, ns _ (by simp), type_integer⟩, ⟨ns _ (by simp), xsdInteger, rfl, vec_integer, ns _ (by simp), type_integer⟩,
    ⟨ns _ (by simp), xsdInteger, rfl, vec_integer, ns _ (by simp), type_integer⟩⟩

/-! ### the tables of values -/

theorem elem_yml {e : Text} {a : Affinity} (h : Elem e a) : e ∈ ymlNames ∧ sqliteType (some (elemIri e)) = .ok a := by
  cases h <;> exact ⟨by decide, by decide +kernel⟩

theorem lookup_data_o (dt : Text) : (dataDts dt).lookup "o".toList = some (some dt) := rfl
theorem lookup_data_s (dt : Text) : (dataDts dt).lookup "s".toList = some (some xsdInteger) := rfl
theorem lookup_data_p (dt : Text) : (dataDts dt).lookup "p".toList = some (some xsdInteger) := rfl

theorem o_suffix (k : Nat) : "o".toList ++ vecSuffix k = "o___".toList ++ dec k := rfl

theorem noSemi_fk : ∀ e ∈ (dataDecl [] []).fk, NoSemi e.1 ∧ NoSemi e.2.1 ∧ NoSemi e.2.2 := by unfold NoSemi; decide +kernel
theorem noSemi_idx : ∀ i ∈ (dataDecl [] []).indexes, ∀ c ∈ i, NoSemi c := by unfold NoSemi; decide +kernel

theorem create_one (maxCols : Nat) (db : Db) {t dt : Text} {a : Affinity} (ht : NoSemi t) (hd : NoSemi dt) (hv : isVec dt = false) (ha : sqliteType (some (elemIri dt)) = .ok a) :
    doCreate maxCols (dataDecl t dt) db = make maxCols (valueTable t [("o".toList, some a)]) [["s".toList, "p".toList]] db := by
  have ns := noSemi_setup
  refine scalar_create maxCols db (d := dataDecl t dt) (cols := [("s".toList, .integer), ("p".toList, .integer), ("o".toList, a)]) rfl (cleanDts_data hd) ?_ ht
    (fun e he => nomatch he) noSemi_fk noSemi_idx
  simp only [List.mem_cons, List.not_mem_nil, or_false, forall_eq_or_imp, forall_eq]
  exact ⟨⟨ns _ (by simp), xsdInteger, rfl, vec_integer, ns _ (by simp), type_integer⟩, ⟨ns _ (by simp), xsdInteger, rfl, vec_integer, ns _ (by simp), type_integer⟩,
    ⟨ns _ (by simp), dt, rfl, hv, hd, ha⟩⟩

theorem noSemi_vecIri {e : Text} (he : e ∈ ymlNames) (sh : List Nat) : NoSemi (vecIri e sh) := by
  unfold vecIri
  refine noSemi_append (noSemi_append (by unfold NoSemi; decide +kernel) (noSemi_yml he)) ?_
  intro h
  rcases List.mem_cons.1 h with h | h
  · cases h
  · have : ∀ l : List Nat, NoSemi (joinWith ['-'] (l.map dec)) := by
      intro l
      induction l with
      | nil => intro h; cases h
      | cons n l ih =>
        cases l with
        | nil => exact noSemi_dec n
        | cons m l =>
          simp only [List.map_cons, joinWith] at ih ⊢
          exact noSemi_append (noSemi_append (noSemi_dec n) (fun h => by cases List.mem_singleton.1 h)) ih
    exact this sh h

theorem create_vec (maxCols : Nat) (db : Db) {t e : Text} {a : Affinity} {sh : List Nat} (ht : NoSemi t) (he : Elem e a) (hs : sh ≠ []) :
    doCreate maxCols (dataDecl t (vecIri e sh)) db = make maxCols (valueTable t ((List.range (shapeSize sh)).map (fun k => ("o___".toList ++ dec k, some a)))) [["s".toList, "p".toList]] db := by
  have ns := noSemi_setup
  obtain ⟨hy, ha⟩ := elem_yml he
  have hd := noSemi_vecIri hy sh
  have key := fixed_create maxCols db (d := dataDecl t (vecIri e sh)) (cols := ("s".toList, .integer) :: ("p".toList, .integer) :: (List.range (shapeSize sh)).map (fun k => ("o___".toList ++ dec k, a)))
    (cleanDts_data hd) (by
      simp only [dataDecl, List.mem_cons, List.not_mem_nil, or_false, forall_eq_or_imp, forall_eq]
      exact ⟨⟨ns _ (by simp), xsdInteger, rfl, Or.inl vec_integer, ns _ (by simp)⟩, ⟨ns _ (by simp), xsdInteger, rfl, Or.inl vec_integer, ns _ (by simp)⟩,
        ⟨ns _ (by simp), _, rfl, Or.inr ⟨e, sh, rfl, hy, hs⟩, hd⟩⟩) (by
      refine ⟨(((List.range (shapeSize sh)).map (fun k => "o".toList ++ vecSuffix k)).foldl (fun (d : Dts) k => d.put k (some e))
        (((dataDts (vecIri e sh)).put "s".toList (some xsdInteger)).put "p".toList (some xsdInteger))).put "o".toList (some (vecIri e sh)), ?_, ?_⟩
      · show expandNames (dataDts (vecIri e sh)) ["s".toList, "p".toList, "o".toList] [] (dataDts (vecIri e sh)) = _
        rw [expandNames]
        simp only [lookup_data_s, Option.all_some, vec_integer, Bool.not_false, if_true]
        rw [expandNames]
        simp only [lookup_data_p, Option.all_some, vec_integer, Bool.not_false, if_true]
        rw [expandNames]
        simp only [lookup_data_o, Option.all_some, isVec_vecIri, Bool.not_true, Bool.false_eq_true, if_false, Option.getD_some, expandedCols_vec hy hs, expandNames]
        congr 2
        simp only [List.map_cons, List.map_map, List.nil_append, List.cons_append]
        congr 2
      · intro x hx
        simp only [lookup_put, lookup_foldl_put]
        rcases List.mem_cons.1 hx with rfl | hx
        · refine ⟨xsdInteger, ?_, type_integer⟩
          rw [if_neg (by decide), if_neg (by
            intro h
            obtain ⟨k, -, h⟩ := List.mem_map.1 h
            have := congrArg List.head? h
            revert this
            simp)]
          rfl
        rcases List.mem_cons.1 hx with rfl | hx
        · refine ⟨xsdInteger, ?_, type_integer⟩
          rw [if_neg (by decide), if_neg (by
            intro h
            obtain ⟨k, -, h⟩ := List.mem_map.1 h
            have := congrArg List.head? h
            revert this
            simp)]
          rfl
        obtain ⟨k, hk, rfl⟩ := List.mem_map.1 hx
        refine ⟨e, ?_, ha⟩
        rw [if_neg (by
          intro h
          have := congrArg List.length h
          simp at this)]
        exact if_pos (List.mem_map.2 ⟨k, hk, rfl⟩))
    ht (fun e he => nomatch he) noSemi_fk noSemi_idx
  rw [key]
  unfold valueTable
  simp only [List.map_cons, List.map_map, Function.comp_def]
  rfl

/-- Every supported datatype gets its table. Proof device; nothing in /repo. -/
theorem create_data (maxCols : Nat) (db : Db) {t dt : Text} {cols : List (Text × Option Affinity)} (h : Supp dt cols) (ht : dataTableName dt = .ok t) :
    doCreate maxCols (dataDecl t dt) db = make maxCols (valueTable t cols) [["s".toList, "p".toList]] db := by
  have go : ∀ {a : Affinity}, NoSemi dt → isVec dt = false → sqliteType (some (elemIri dt)) = .ok a →
      doCreate maxCols (dataDecl t dt) db = make maxCols (valueTable t [("o".toList, some a)]) [["s".toList, "p".toList]] db :=
    fun h1 h2 h3 => create_one maxCols db (table_noSemi ht h1) h1 h2 h3
  cases h with
  | integer => exact go (by unfold NoSemi; decide +kernel) (by decide +kernel) (by decide +kernel)
  | boolean => exact go (by unfold NoSemi; decide +kernel) (by decide +kernel) (by decide +kernel)
  | float => exact go (by unfold NoSemi; decide +kernel) (by decide +kernel) (by decide +kernel)
  | string => exact go (by unfold NoSemi; decide +kernel) (by decide +kernel) (by decide +kernel)
  | vector he hs => exact create_vec maxCols db (table_noSemi ht (noSemi_vecIri (elem_yml he).1 _)) he hs
  | limited n hn =>
    have e : "http://www.osp-core.com/cuba#_datatypes/STRING-".toList = Yaml.strPrefix := by decide +kernel
    have e2 : Yaml.strPrefix = cubaIri ++ stringPart := by decide +kernel
    have hb : Yaml.basicOf (Yaml.strPrefix ++ n) = none := Yaml.basicOf_none (fun b h => by
      have := congrArg List.length h
      have l1 : b.name.length ≤ 6 := by cases b <;> decide
      have l2 : Yaml.strPrefix.length = 47 := by decide +kernel
      rw [List.length_append, l2] at this
      omega)
    refine go (noSemi_append (by unfold NoSemi; decide +kernel) hn) ?_ ?_
    · rw [e]
      unfold isVec
      rw [show vecPrefix = Yaml.dtPrefix ++ "VECTOR-".toList from by decide +kernel, show Yaml.strPrefix ++ n = Yaml.dtPrefix ++ ("STRING-".toList ++ n) from by unfold Yaml.strPrefix; rw [List.append_assoc],
        isPrefixOf_append_iff]
      rfl
    · rw [e]
      unfold elemIri
      rw [hb]
      simp only []
      unfold sqliteType
      simp only []
      have ne : ∀ u : Text, u.length ≤ 46 → Yaml.strPrefix ++ n ≠ u := by
        intro u hu h
        have := congrArg List.length h
        have l2 : Yaml.strPrefix.length = 47 := by decide +kernel
        rw [List.length_append, l2] at this
        omega
      rw [if_neg (ne _ (by decide +kernel)), if_neg (ne _ (by decide +kernel)), if_neg (ne _ (by decide +kernel)), if_neg (ne _ (by decide +kernel)), if_neg (ne _ (by decide +kernel)), if_pos]
      rw [e2, isPrefixOf_append_self]

/-! ### several tables -/

/-- Creating several tables. Proof device; nothing in /repo. -/
def makeAll (maxCols : Nat) : List (Table × List (List Text)) → Db → Except PyErr Unit × Db
  | [], db => (.ok (), db)
  | x :: l, db => match make maxCols x.1 x.2 db with
    | (.error e, db) => (.error e, db)
    | (.ok _, db) => makeAll maxCols l db

/-- There is a table of that name. Proof device; nothing in /repo. -/
def Has (db : Db) (name : Text) : Prop := ∃ u ∈ db.tables, u.name = name

instance (db : Db) (name : Text) : Decidable (Has db name) := decidable_of_iff (db.tables.any (fun u => decide (u.name = name)) = true) (by simp [Has])

theorem index_tables (text : Text) (i : Text × Text × List Text) (db : Db) : (db.index text i).tables = db.tables := by
  unfold Db.index
  simp only
  split <;> rfl

theorem foldl_index_tables (f : List Text → Text) (g : List Text → Text × Text × List Text) : ∀ (l : List (List Text)) (db : Db), (l.foldl (fun db i => db.index (f i) (g i)) db).tables = db.tables
  | [], _ => rfl
  | i :: l, db => by rw [List.foldl_cons, foldl_index_tables f g l, index_tables]

theorem foldl_index_mem (f : List Text → Text) (g : List Text → Text × Text × List Text) : ∀ (l : List (List Text)) (db : Db),
    (∃ new, (l.foldl (fun db i => db.index (f i) (g i)) db).indexes = db.indexes ++ new) ∧
    (∀ i ∈ l, ∃ j ∈ (l.foldl (fun db i => db.index (f i) (g i)) db).indexes, j.1 = (g i).1) ∧
    (∀ j ∈ (l.foldl (fun db i => db.index (f i) (g i)) db).indexes, j ∈ db.indexes ∨ ∃ i ∈ l, j = g i ∧ ∀ k ∈ db.indexes, k.1 ≠ j.1)
  | [], db => ⟨⟨[], (List.append_nil _).symm⟩, fun i hi => (nomatch hi), fun j hj => Or.inl hj⟩
  | i :: l, db => by
    rw [List.foldl_cons]
    obtain ⟨⟨new, h1⟩, h2, h3⟩ := foldl_index_mem f g l (db.index (f i) (g i))
    have hi : (∃ j ∈ db.indexes, j.1 = (g i).1) ∧ (db.index (f i) (g i)).indexes = db.indexes ∨ (¬ ∃ j ∈ db.indexes, j.1 = (g i).1) ∧ (db.index (f i) (g i)).indexes = db.indexes ++ [g i] := by
      unfold Db.index
      simp only
      by_cases h : ∃ j ∈ db.indexes, j.1 = (g i).1
      · rw [if_pos (by simpa using h)]; exact Or.inl ⟨h, rfl⟩
      · rw [if_neg (by simpa using h)]; exact Or.inr ⟨h, rfl⟩
    have hsub : ∀ j ∈ (db.index (f i) (g i)).indexes, j ∈ (l.foldl (fun db i => db.index (f i) (g i)) (db.index (f i) (g i))).indexes := by
      intro j hj
      rw [h1]
      exact List.mem_append.2 (Or.inl hj)
    rcases hi with ⟨ha, hb⟩ | ⟨ha, hb⟩
    · refine ⟨⟨new, by rw [h1, hb]⟩, ?_, ?_⟩
      · intro x hx
        rcases List.mem_cons.1 hx with rfl | hx
        · obtain ⟨j, hj, e⟩ := ha
          exact ⟨j, hsub j (hb ▸ hj), e⟩
        · exact h2 x hx
      · intro j hj
        rcases h3 j hj with h | ⟨x, hx, e, hn⟩
        · exact Or.inl (hb ▸ h)
        · exact Or.inr ⟨x, List.mem_cons_of_mem _ hx, e, hb ▸ hn⟩
    · refine ⟨⟨g i :: new, by rw [h1, hb, List.append_assoc]; rfl⟩, ?_, ?_⟩
      · intro x hx
        rcases List.mem_cons.1 hx with rfl | hx
        · exact ⟨_, hsub _ (by rw [hb]; exact List.mem_append.2 (Or.inr List.mem_cons_self)), rfl⟩
        · exact h2 x hx
      · intro j hj
        rcases h3 j hj with h | ⟨x, hx, e, hn⟩
        · rw [hb] at h
          rcases List.mem_append.1 h with h | h
          · exact Or.inl h
          · cases List.mem_singleton.1 h
            exact Or.inr ⟨i, List.mem_cons_self, rfl, fun k hk e => ha ⟨k, hk, e⟩⟩
        · refine Or.inr ⟨x, List.mem_cons_of_mem _ hx, e, fun k hk => hn k ?_⟩
          rw [hb]
          exact List.mem_append.2 (Or.inl hk)

/-- What creating one table does. Proof device; nothing in /repo. -/
theorem make_spec (maxCols : Nat) (t : Table) (idx : List (List Text)) (db : Db) :
    ((make maxCols t idx db).1 = .ok () ∧ (Has db t.name ∨ t.cols.length ≤ maxCols) ∧ (make maxCols t idx db).2.tables = db.tables ++ (if Has db t.name then [] else [t]) ∧
      (∃ new, (make maxCols t idx db).2.indexes = db.indexes ++ new) ∧
      (∀ i ∈ idx, ∃ j ∈ (make maxCols t idx db).2.indexes, j.1 = indexName t.name i) ∧
      (∀ j ∈ (make maxCols t idx db).2.indexes, j ∈ db.indexes ∨ ∃ i ∈ idx, j = (indexName t.name i, t.name, i) ∧ ∀ k ∈ db.indexes, k.1 ≠ j.1)) ∨
    ((∃ e, (make maxCols t idx db).1 = .error e) ∧ ¬ (Has db t.name ∨ t.cols.length ≤ maxCols)) := by
  unfold make
  by_cases h : Has db t.name
  · have e : db.create maxCols (createText t.name t.cols t.pk t.fk) t = (.ok (), { db with sent := db.sent ++ [createText t.name t.cols t.pk t.fk] }) := by
      unfold Db.create
      simp only
      rw [if_pos (by simpa [Has] using h)]
    rw [e]
    refine Or.inl ⟨rfl, Or.inl h, ?_, ?_⟩
    · simp only
      rw [foldl_index_tables, if_pos h, List.append_nil]
    · exact foldl_index_mem _ (fun i => (indexName t.name i, t.name, i)) idx _
  · by_cases hc : maxCols < t.cols.length
    · have e : db.create maxCols (createText t.name t.cols t.pk t.fk) t = (.error .exception, { db with sent := db.sent ++ [createText t.name t.cols t.pk t.fk] }) := by
        unfold Db.create
        simp only
        rw [if_neg (by simpa [Has] using h), if_pos hc]
      rw [e]
      exact Or.inr ⟨⟨_, rfl⟩, fun k => k.elim h (Nat.not_le.2 hc)⟩
    · have e : db.create maxCols (createText t.name t.cols t.pk t.fk) t = (.ok (), { db with sent := db.sent ++ [createText t.name t.cols t.pk t.fk], tables := db.tables ++ [t] }) := by
        unfold Db.create
        simp only
        rw [if_neg (by simpa [Has] using h), if_neg hc]
      rw [e]
      refine Or.inl ⟨rfl, Or.inr (Nat.not_lt.1 hc), ?_, ?_⟩
      · simp only
        rw [foldl_index_tables, if_neg h]
      · exact foldl_index_mem _ (fun i => (indexName t.name i, t.name, i)) idx _

theorem makeAll_append (maxCols : Nat) : ∀ (l l' : List (Table × List (List Text))) (db : Db), makeAll maxCols (l ++ l') db = match makeAll maxCols l db with
    | (.error e, db) => (.error e, db)
    | (.ok _, db) => makeAll maxCols l' db
  | [], l', db => rfl
  | x :: l, l', db => by
    rw [List.cons_append, makeAll, makeAll]
    rcases h : make maxCols x.1 x.2 db with ⟨r, db1⟩
    cases r with
    | error e => rfl
    | ok u => exact makeAll_append maxCols l l' db1

/-- It succeeds if every table exists or is not too wide. Proof device; nothing in /repo. -/
theorem makeAll_ok_iff (maxCols : Nat) : ∀ (l : List (Table × List (List Text))) (db : Db), (∀ a ∈ l, ∀ b ∈ l, a.1.name = b.1.name → a.1 = b.1) →
    ((makeAll maxCols l db).1 = .ok () ↔ ∀ a ∈ l, Has db a.1.name ∨ a.1.cols.length ≤ maxCols)
  | [], db, _ => ⟨fun _ a ha => (nomatch ha), fun _ => rfl⟩
  | x :: l, db, hinj => by
    rw [makeAll]
    have hi : ∀ a ∈ l, ∀ b ∈ l, a.1.name = b.1.name → a.1 = b.1 := fun a ha b hb => hinj a (List.mem_cons_of_mem _ ha) b (List.mem_cons_of_mem _ hb)
    rcases make_spec maxCols x.1 x.2 db with ⟨h1, h2, h3, -⟩ | ⟨⟨e, h1⟩, h2⟩
    · rcases hm : make maxCols x.1 x.2 db with ⟨r, db1⟩
      rw [hm] at h1 h3
      simp only at h1 h3
      subst h1
      simp only
      rw [makeAll_ok_iff maxCols l db1 hi]
      have hh : ∀ a ∈ l, (Has db1 a.1.name ∨ a.1.cols.length ≤ maxCols) ↔ (Has db a.1.name ∨ a.1.cols.length ≤ maxCols) := by
        intro a ha
        constructor
        · rintro (⟨u, hu, e⟩ | h)
          · rw [h3] at hu
            rcases List.mem_append.1 hu with hu | hu
            · exact Or.inl ⟨u, hu, e⟩
            · by_cases hx : Has db x.1.name
              · rw [if_pos hx] at hu; cases hu
              · rw [if_neg hx] at hu
                have := List.mem_singleton.1 hu
                subst this
                have e2 := hinj x List.mem_cons_self a (List.mem_cons_of_mem _ ha) e
                rw [← e2]
                exact h2
          · exact Or.inr h
        · rintro (⟨u, hu, e⟩ | h)
          · exact Or.inl ⟨u, by rw [h3]; exact List.mem_append.2 (Or.inl hu), e⟩
          · exact Or.inr h
      constructor
      · intro h a ha
        rcases List.mem_cons.1 ha with rfl | ha
        · exact h2
        · exact (hh a ha).1 (h a ha)
      · exact fun h a ha => (hh a ha).2 (h a (List.mem_cons_of_mem _ ha))
    · rcases hm : make maxCols x.1 x.2 db with ⟨r, db1⟩
      rw [hm] at h1
      simp only at h1
      subst h1
      simp only
      exact ⟨fun h => (nomatch h), fun h => absurd (h x List.mem_cons_self) h2⟩

/-- What is there afterwards. Proof device; nothing in /repo. -/
theorem makeAll_spec (maxCols : Nat) : ∀ (l : List (Table × List (List Text))) (db : Db), (∀ a ∈ l, ∀ b ∈ l, a.1.name = b.1.name → a.1 = b.1) → (makeAll maxCols l db).1 = .ok () →
    (∃ new, (makeAll maxCols l db).2.tables = db.tables ++ new ∧ (new.map Table.name).Nodup ∧ (∀ t ∈ new, ¬ Has db t.name ∧ ∃ a ∈ l, a.1 = t) ∧ ∀ a ∈ l, Has db a.1.name ∨ a.1 ∈ new) ∧
    (∃ new, (makeAll maxCols l db).2.indexes = db.indexes ++ new) ∧
    (∀ a ∈ l, ∀ i ∈ a.2, ∃ j ∈ (makeAll maxCols l db).2.indexes, j.1 = indexName a.1.name i) ∧
    (∀ j ∈ (makeAll maxCols l db).2.indexes, j ∈ db.indexes ∨ ∃ a ∈ l, ∃ i ∈ a.2, j = (indexName a.1.name i, a.1.name, i) ∧ ∀ k ∈ db.indexes, k.1 ≠ j.1)
  | [], db, _, _ => ⟨⟨[], (List.append_nil _).symm, List.nodup_nil, fun t ht => (nomatch ht), fun a ha => (nomatch ha)⟩, ⟨[], (List.append_nil _).symm⟩, fun a ha => (nomatch ha), fun j hj => Or.inl hj⟩
  | x :: l, db, hinj, hok => by
    have hi : ∀ a ∈ l, ∀ b ∈ l, a.1.name = b.1.name → a.1 = b.1 := fun a ha b hb => hinj a (List.mem_cons_of_mem _ ha) b (List.mem_cons_of_mem _ hb)
    rw [makeAll] at hok ⊢
    rcases make_spec maxCols x.1 x.2 db with ⟨h1, h2, h3, ⟨new1, h4⟩, h5, h6⟩ | ⟨⟨e, h1⟩, h2⟩
    · rcases hm : make maxCols x.1 x.2 db with ⟨r, db1⟩
      rw [hm] at h1 h3 h4 h5 h6 hok
      simp only at h1 h3 h4 h5 h6
      subst h1
      simp only at hok ⊢
      obtain ⟨⟨new, k1, k2, k3, k4⟩, ⟨new2, k5⟩, k6, k7⟩ := makeAll_spec maxCols l db1 hi hok
      refine ⟨⟨(if Has db x.1.name then [] else [x.1]) ++ new, by rw [k1, h3, List.append_assoc], ?_, ?_, ?_⟩, ⟨new1 ++ new2, by rw [k5, h4, List.append_assoc]⟩, ?_, ?_⟩
      · by_cases hx : Has db x.1.name
        · rw [if_pos hx]; exact k2
        · rw [if_neg hx, List.singleton_append, List.map_cons, List.nodup_cons]
          refine ⟨fun h => ?_, k2⟩
          obtain ⟨t, ht, e⟩ := List.mem_map.1 h
          refine (k3 t ht).1 ⟨x.1, ?_, e.symm⟩
          rw [h3, if_neg hx]
          exact List.mem_append.2 (Or.inr List.mem_cons_self)
      · intro t ht
        rcases List.mem_append.1 ht with ht | ht
        · by_cases hx : Has db x.1.name
          · rw [if_pos hx] at ht; cases ht
          · rw [if_neg hx] at ht
            cases List.mem_singleton.1 ht
            exact ⟨hx, x, List.mem_cons_self, rfl⟩
        · obtain ⟨q1, a, ha, e⟩ := k3 t ht
          refine ⟨fun ⟨u, hu, e⟩ => q1 ⟨u, ?_, e⟩, a, List.mem_cons_of_mem _ ha, e⟩
          rw [h3]
          exact List.mem_append.2 (Or.inl hu)
      · have hx0 : Has db x.1.name ∨ x.1 ∈ (if Has db x.1.name then [] else [x.1]) ++ new := by
          by_cases hx : Has db x.1.name
          · exact Or.inl hx
          · rw [if_neg hx]; exact Or.inr List.mem_cons_self
        intro a ha
        rcases List.mem_cons.1 ha with rfl | ha
        · exact hx0
        · rcases k4 a ha with ⟨u, hu, e⟩ | h
          · rw [h3] at hu
            rcases List.mem_append.1 hu with hu | hu
            · exact Or.inl ⟨u, hu, e⟩
            · by_cases hx : Has db x.1.name
              · rw [if_pos hx] at hu; cases hu
              · rw [if_neg hx] at hu
                have := List.mem_singleton.1 hu
                subst this
                rw [← hinj x List.mem_cons_self a (List.mem_cons_of_mem _ ha) e]
                exact hx0
          · exact Or.inr (List.mem_append.2 (Or.inr h))
      · intro a ha i hia
        rcases List.mem_cons.1 ha with rfl | ha
        · obtain ⟨j, hj, e⟩ := h5 i hia
          exact ⟨j, by rw [k5]; exact List.mem_append.2 (Or.inl hj), e⟩
        · exact k6 a ha i hia
      · intro j hj
        rcases k7 j hj with h | ⟨a, ha, i, hia, e, hn⟩
        · rcases h6 j h with h | ⟨i, hia, e, hn⟩
          · exact Or.inl h
          · exact Or.inr ⟨x, List.mem_cons_self, i, hia, e, hn⟩
        · refine Or.inr ⟨a, List.mem_cons_of_mem _ ha, i, hia, e, fun k hk => hn k ?_⟩
          rw [h4]
          exact List.mem_append.2 (Or.inl hk)
    · rcases hm : make maxCols x.1 x.2 db with ⟨r, db1⟩
      rw [hm] at h1 hok
      simp only at h1
      subst h1
      simp only at hok
      cases hok

/-! ### which datatypes are supported -/

theorem supp_supported {dt : Text} {cols : List (Text × Option Affinity)} (h : Supp dt cols) : ∃ ns name, Supported dt ns name := by
  have x : ∀ {t : Text}, xsdIri.isPrefixOf t = true → ∃ ns name, Supported t ns name := by
    intro t ht
    obtain ⟨u, rfl⟩ := List.isPrefixOf_iff_prefix.1 ht
    exact ⟨_, _, .xsd u⟩
  cases h with
  | integer => exact x (by decide +kernel)
  | boolean => exact x (by decide +kernel)
  | float => exact x (by decide +kernel)
  | string => exact x (by decide +kernel)
  | limited t _ =>
    have e : "http://www.osp-core.com/cuba#_datatypes/STRING-".toList ++ t = cubaIri ++ (dtPart ++ ("STRING-".toList ++ t)) := by
      rw [← List.append_assoc, ← List.append_assoc]
      congr 1
    rw [e]
    refine ⟨_, _, .cuba _ ?_⟩
    unfold Ambiguous
    have f : ∀ p : Text, p.isPrefixOf ("STRING-".toList ++ t) = false → ¬ p <+: "STRING-".toList ++ t := by
      intro p hp h
      rw [List.isPrefixOf_iff_prefix.2 h] at hp
      cases hp
    rintro (h | h | h | h)
    all_goals exact f _ rfl h
  | vector he hs => exact ⟨_, _, created_datatypes_supported.2 _ _⟩

theorem supp_table {dt : Text} {cols : List (Text × Option Affinity)} (h : Supp dt cols) : ∃ t, dataTableName dt = .ok t := by
  obtain ⟨ns, name, h⟩ := supp_supported h
  obtain ⟨t, h1, -⟩ := table_name_determines_partial (fun a b => some (a ++ b)) h rfl
  exact ⟨t, h1⟩

/-- The columns are determined by the datatype. Proof device; nothing in /repo. -/
theorem supp_unique {dt : Text} {cols cols' : List (Text × Option Affinity)} (h : Supp dt cols) (h' : Supp dt cols') : cols = cols' := by
  obtain ⟨t, ht⟩ := supp_table h
  have key : ∀ {c : List (Text × Option Affinity)}, Supp dt c → (doCreate (max cols.length cols'.length + 2) (dataDecl t dt) ⟨[], [], []⟩).2.tables = if c.length ≤ max cols.length cols'.length then [valueTable t c] else [] := by
    intro c hc
    rw [create_data _ _ hc ht]
    unfold make Db.create
    simp only [List.any_nil, Bool.false_eq_true, if_false]
    by_cases hl : c.length ≤ max cols.length cols'.length
    · rw [if_pos hl, if_neg (by show ¬ _ < c.length + 1 + 1; omega)]
      simp only
      rw [foldl_index_tables]
      rfl
    · rw [if_neg hl, if_pos (by show _ < c.length + 1 + 1; omega)]
  have e := (key h).symm.trans (key h')
  rw [if_pos (by omega), if_pos (by omega)] at e
  have e2 := List.head_eq_of_cons_eq e
  have e3 := congrArg Table.cols e2
  simp only [valueTable, List.cons.injEq, true_and] at e3
  exact e3

theorem standard_eq : standard = standardTypes := by decide +kernel

theorem standard_supp : ∀ dt ∈ standardTypes, ∃ a, Supp dt [("o".toList, some a)] := by
  simp only [standardTypes, List.mem_cons, List.not_mem_nil, or_false, forall_eq_or_imp, forall_eq]
  exact ⟨⟨_, .integer⟩, ⟨_, .boolean⟩, ⟨_, .float⟩, ⟨_, .string⟩⟩

theorem createData_make (maxCols : Nat) : ∀ (ds : List Text), (∀ dt ∈ ds, ∃ cols, Supp dt cols) → ∃ l : List (Table × List (List Text)),
    (∀ db, createData maxCols ds db = makeAll maxCols l db) ∧
    (∀ a ∈ l, ∃ dt ∈ ds, ∃ cols name, Supp dt cols ∧ dataTableName dt = .ok name ∧ a = (valueTable name cols, [["s".toList, "p".toList]])) ∧
    (∀ dt ∈ ds, ∀ cols name, Supp dt cols → dataTableName dt = .ok name → (valueTable name cols, [["s".toList, "p".toList]]) ∈ l)
  | [], _ => ⟨[], fun _ => rfl, fun a ha => (nomatch ha), fun a ha => (nomatch ha)⟩
  | dt :: ds, h => by
    obtain ⟨l, h1, h2, h3⟩ := createData_make maxCols ds (fun x hx => h x (List.mem_cons_of_mem _ hx))
    obtain ⟨cols, hc⟩ := h dt List.mem_cons_self
    obtain ⟨t, ht⟩ := supp_table hc
    refine ⟨(valueTable t cols, [["s".toList, "p".toList]]) :: l, ?_, ?_, ?_⟩
    · intro db
      rw [createData, makeAll]
      simp only [ht, create_data maxCols db hc ht]
      rcases make maxCols (valueTable t cols) [["s".toList, "p".toList]] db with ⟨r, db1⟩
      cases r with
      | error e => rfl
      | ok u => exact h1 db1
    · intro a ha
      rcases List.mem_cons.1 ha with rfl | ha
      · exact ⟨dt, List.mem_cons_self, cols, t, hc, ht, rfl⟩
      · obtain ⟨d, hd, k⟩ := h2 a ha
        exact ⟨d, List.mem_cons_of_mem _ hd, k⟩
    · intro d hd cols' name hc' hn
      rcases List.mem_cons.1 hd with rfl | hd
      · rw [ht] at hn
        cases hn
        rw [supp_unique hc' hc]
        exact List.mem_cons_self
      · exact List.mem_cons_of_mem _ (h3 d hd cols' name hc' hn)

theorem createAll_make (maxCols : Nat) (db : Db) : createAll maxCols [nsDecl, cudsDecl, entitiesDecl, typesDecl, relsDecl] db = makeAll maxCols fixedTables db := by
  have e : fixedTables = [fixedAt 0, fixedAt 1, fixedAt 2, fixedAt 3, fixedAt 4] := rfl
  rw [e]
  generalize hf0 : fixedAt 0 = f0
  generalize hf1 : fixedAt 1 = f1
  generalize hf2 : fixedAt 2 = f2
  generalize hf3 : fixedAt 3 = f3
  generalize hf4 : fixedAt 4 = f4
  simp only [createAll, makeAll, create_ns, create_cuds, create_entities, create_types, create_rels, hf0, hf1, hf2, hf3, hf4]
  rcases make maxCols f0.1 f0.2 db with ⟨r, db⟩
  cases r with
  | error e => rfl
  | ok u =>
  simp only
  rcases make maxCols f1.1 f1.2 db with ⟨r, db⟩
  cases r with
  | error e => rfl
  | ok u =>
  simp only
  rcases make maxCols f2.1 f2.2 db with ⟨r, db⟩
  cases r with
  | error e => rfl
  | ok u =>
  simp only
  rcases make maxCols f3.1 f3.2 db with ⟨r, db⟩
  cases r with
  | error e => rfl
  | ok u =>
  simp only
  rcases make maxCols f4.1 f4.2 db with ⟨r, db⟩
  cases r <;> rfl

theorem init_make (maxCols : Nat) (S : SetOrder) (declared : List Text) (h : ∀ dt ∈ customDatatypes declared, ∃ cols, Supp dt cols) : ∃ l : List (Table × List (List Text)),
    (∀ db, initDb maxCols (.ok ()) S declared db = makeAll maxCols l db) ∧ (∀ t i, Required (customDatatypes declared) t i ↔ (t, i) ∈ l) ∧
    (∀ a ∈ l, ∀ b ∈ l, a.1.name = b.1.name → a.1 = b.1) := by
  have hall : ∀ dt ∈ S.items (customDatatypes declared ++ standard), ∃ cols, Supp dt cols := by
    intro dt hd
    rcases List.mem_append.1 ((S.mem _ _).1 hd) with hd | hd
    · exact h dt hd
    · rw [standard_eq] at hd
      obtain ⟨a, ha⟩ := standard_supp dt hd
      exact ⟨_, ha⟩
  obtain ⟨l, h1, h2, h3⟩ := createData_make maxCols _ hall
  have hreq : ∀ t i, Required (customDatatypes declared) t i ↔ (t, i) ∈ fixedTables ++ l := by
    intro t i
    constructor
    · intro hr
      cases hr with
      | fixed hm => exact List.mem_append.2 (Or.inl hm)
      | value hd hc hn => exact List.mem_append.2 (Or.inr (h3 _ ((S.mem _ _).2 (List.mem_append.2 (by rw [standard_eq]; exact hd))) _ _ hc hn))
    · intro hm
      rcases List.mem_append.1 hm with hm | hm
      · exact .fixed hm
      · obtain ⟨dt, hd, cols, name, hc, hn, e⟩ := h2 _ hm
        cases e
        refine .value ?_ hc hn
        rw [← standard_eq]
        exact List.mem_append.1 ((S.mem _ _).1 hd)
  refine ⟨fixedTables ++ l, ?_, hreq, ?_⟩
  · intro db
    unfold initDb
    simp only
    rw [createAll_make, makeAll_append]
    rcases makeAll maxCols fixedTables db with ⟨r, db1⟩
    cases r with
    | error e => rfl
    | ok u => exact h1 db1
  · have hfix : ∀ a ∈ fixedTables, ∀ b ∈ fixedTables, a.1.name = b.1.name → a.1 = b.1 := by decide +kernel
    have hosp : ∀ a ∈ fixedTables, a.1.name.head? = some 'O' := by decide +kernel
    have hdat : ∀ a ∈ l, a.1.name.head? = some 'D' := by
      intro a ha
      obtain ⟨dt, hd, cols, name, hc, hn, rfl⟩ := h2 a ha
      show name.head? = some 'D'
      have hp : ∀ x : Text, (tablePrefix ++ x).head? = some 'D' := fun x => rfl
      unfold dataTableName at hn
      split at hn
      · cases hn; rw [List.append_assoc]; exact hp _
      · split at hn
        · cases hn; rw [List.append_assoc]; exact hp _
        · split at hn
          · cases hn; rw [List.append_assoc]; exact hp _
          · split at hn
            · cases hn; rw [List.append_assoc]; exact hp _
            · split at hn
              · cases hn; exact hp _
              · cases hn
    intro a ha b hb e
    rcases List.mem_append.1 ha with ha | ha <;> rcases List.mem_append.1 hb with hb | hb
    · exact hfix a ha b hb e
    · have := (hosp a ha).symm.trans ((congrArg List.head? e).trans (hdat b hb))
      cases this
    · have := (hosp b hb).symm.trans ((congrArg List.head? e.symm).trans (hdat a ha))
      cases this
    · obtain ⟨dt, hd, cols, name, hc, hn, rfl⟩ := h2 a ha
      obtain ⟨dt', hd', cols', name', hc', hn', rfl⟩ := h2 b hb
      have en : name = name' := e
      subst en
      obtain ⟨_, _, s1⟩ := supp_supported hc
      obtain ⟨_, _, s2⟩ := supp_supported hc'
      have := table_name_injective_partial s1 s2 (hn.trans hn'.symm)
      subst this
      rw [supp_unique hc hc']

/-! ### C91: the tables of a session -/

/-- **C91.** Opening a session succeeds if and only if every table that does not exist yet fits into the database (sqlite allows 2000 columns: a vector attribute with more elements makes every session fail). -/
theorem init_ok_iff {maxCols : Nat} (S : SetOrder) {declared : List Text} (h : ∀ dt ∈ customDatatypes declared, ∃ cols, Supp dt cols) (db : Db) :
    (initDb maxCols (.ok ()) S declared db).1 = .ok () ↔ ∀ t i, Required (customDatatypes declared) t i → (∃ u ∈ db.tables, u.name = t.name) ∨ t.cols.length ≤ maxCols := by
  obtain ⟨l, h1, h2, h3⟩ := init_make maxCols S declared h
  rw [h1, makeAll_ok_iff maxCols l db h3]
  exact ⟨fun hl t i hr => hl (t, i) ((h2 t i).1 hr), fun hl a ha => hl a.1 a.2 ((h2 _ _).2 ha)⟩

/-- **C91.** After a session was opened, the tables that were there are still there, unchanged and in the same place; behind them are exactly the required tables that were missing, each once. -/
theorem init_tables_partial {maxCols : Nat} (S : SetOrder) {declared : List Text} (h : ∀ dt ∈ customDatatypes declared, ∃ cols, Supp dt cols) (db : Db) (hok : (initDb maxCols (.ok ()) S declared db).1 = .ok ()) :
    ∃ new, (initDb maxCols (.ok ()) S declared db).2.tables = db.tables ++ new ∧ (new.map Table.name).Nodup ∧
      ∀ t, t ∈ new ↔ (∃ i, Required (customDatatypes declared) t i) ∧ ∀ u ∈ db.tables, u.name ≠ t.name := by
  obtain ⟨l, h1, h2, h3⟩ := init_make maxCols S declared h
  rw [h1] at hok ⊢
  obtain ⟨⟨new, k1, k2, k3, k4⟩, -⟩ := makeAll_spec maxCols l db h3 hok
  refine ⟨new, k1, k2, fun t => ⟨fun ht => ?_, fun ⟨⟨i, hr⟩, hn⟩ => ?_⟩⟩
  · obtain ⟨q1, a, ha, rfl⟩ := k3 t ht
    exact ⟨⟨a.2, (h2 _ _).2 ha⟩, fun u hu e => q1 ⟨u, hu, e⟩⟩
  · rcases k4 (t, i) ((h2 _ _).1 hr) with ⟨u, hu, e⟩ | h
    · exact absurd e (hn u hu)
    · exact h

/-- **C91.** Every index is there; indexes that were there stay; a new index has the name made of its table and columns and is on that table. -/
theorem init_indexes {maxCols : Nat} (S : SetOrder) {declared : List Text} (h : ∀ dt ∈ customDatatypes declared, ∃ cols, Supp dt cols) (db : Db) (hok : (initDb maxCols (.ok ()) S declared db).1 = .ok ()) :
    (∃ new, (initDb maxCols (.ok ()) S declared db).2.indexes = db.indexes ++ new) ∧
    (∀ t is, Required (customDatatypes declared) t is → ∀ i ∈ is, ∃ j ∈ (initDb maxCols (.ok ()) S declared db).2.indexes, j.1 = "idx_".toList ++ t.name ++ '_' :: joinWith ['_'] i) ∧
    (∀ j ∈ (initDb maxCols (.ok ()) S declared db).2.indexes, j ∈ db.indexes ∨
      ∃ t is i, Required (customDatatypes declared) t is ∧ i ∈ is ∧ j = ("idx_".toList ++ t.name ++ '_' :: joinWith ['_'] i, t.name, i)) := by
  obtain ⟨l, h1, h2, h3⟩ := init_make maxCols S declared h
  rw [h1] at hok ⊢
  obtain ⟨-, k1, k2, k3⟩ := makeAll_spec maxCols l db h3 hok
  refine ⟨k1, fun t is hr i hi => k2 (t, is) ((h2 _ _).1 hr) i hi, fun j hj => ?_⟩
  rcases k3 j hj with h | ⟨a, ha, i, hi, e, -⟩
  · exact Or.inl h
  · exact Or.inr ⟨a.1, a.2, i, (h2 _ _).2 ha, hi, e⟩

/-- **C91.** Opening a second session on the same database changes no table, whatever the order of the datatypes is. -/
theorem init_again {maxCols : Nat} (S S' : SetOrder) {declared : List Text} (h : ∀ dt ∈ customDatatypes declared, ∃ cols, Supp dt cols) (db : Db) (hok : (initDb maxCols (.ok ()) S declared db).1 = .ok ()) :
    (initDb maxCols (.ok ()) S' declared (initDb maxCols (.ok ()) S declared db).2).1 = .ok () ∧
    (initDb maxCols (.ok ()) S' declared (initDb maxCols (.ok ()) S declared db).2).2.tables = (initDb maxCols (.ok ()) S declared db).2.tables := by
  obtain ⟨new, k1, -, k3⟩ := init_tables_partial S h db hok
  have hhas : ∀ t i, Required (customDatatypes declared) t i → ∃ u ∈ (initDb maxCols (.ok ()) S declared db).2.tables, u.name = t.name := by
    intro t i hr
    rw [k1]
    by_cases hd : ∃ u ∈ db.tables, u.name = t.name
    · obtain ⟨u, hu, e⟩ := hd
      exact ⟨u, List.mem_append.2 (Or.inl hu), e⟩
    · exact ⟨t, List.mem_append.2 (Or.inr ((k3 t).2 ⟨⟨i, hr⟩, fun u hu e => hd ⟨u, hu, e⟩⟩)), rfl⟩
  have hok' := (init_ok_iff (maxCols := maxCols) S' h (initDb maxCols (.ok ()) S declared db).2).2 (fun t i hr => Or.inl (hhas t i hr))
  refine ⟨hok', ?_⟩
  obtain ⟨new', q1, -, q3⟩ := init_tables_partial S' h _ hok'
  have : new' = [] := by
    cases new' with
    | nil => rfl
    | cons t l =>
      obtain ⟨⟨i, hr⟩, hn⟩ := (q3 t).1 List.mem_cons_self
      obtain ⟨u, hu, e⟩ := hhas t i hr
      exact absurd e (hn u hu)
  rw [q1, this, List.append_nil]

/-- **C91.** A database with another version of the schema is not touched. -/
theorem init_refused (maxCols : Nat) (S : SetOrder) (declared : List Text) (db : Db) (e : PyErr) : initDb maxCols (.error e) S declared db = (.error e, db) := rfl

end Osp.Setup
