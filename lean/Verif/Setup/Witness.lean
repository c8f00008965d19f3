import Verif.Setup.Clear
import Verif.Export.Props
/-!
# Creating and clearing the tables (C91): examples
-/
namespace Osp.Setup
open Osp.Sql Osp.Stmt

/-- Example. -/
def exItems (l : List Text) : List Text := l.foldr (fun x a => if x ∈ a then a else x :: a) []

theorem mem_exItems : ∀ (l : List Text) (x : Text), x ∈ exItems l ↔ x ∈ l
  | [], x => Iff.rfl
  | y :: l, x => by
    have ih := mem_exItems l
    rw [exItems, List.foldr_cons]
    show x ∈ (if y ∈ exItems l then exItems l else y :: exItems l) ↔ _
    by_cases h : y ∈ exItems l
    · rw [if_pos h, ih, List.mem_cons]
      exact ⟨Or.inr, fun k => k.elim (fun e => by rw [e]; exact (ih y).1 h) id⟩
    · rw [if_neg h, List.mem_cons, List.mem_cons, ih]

theorem nodup_exItems : ∀ l : List Text, (exItems l).Nodup
  | [] => List.nodup_nil
  | y :: l => by
    rw [exItems, List.foldr_cons]
    show (if y ∈ exItems l then exItems l else y :: exItems l).Nodup
    by_cases h : y ∈ exItems l
    · rw [if_pos h]; exact nodup_exItems l
    · rw [if_neg h]; exact List.nodup_cons.2 ⟨h, nodup_exItems l⟩

/-- Example. -/
def exOrder : SetOrder := ⟨exItems, mem_exItems, nodup_exItems⟩

/-- Example: an empty database. -/
def emptyDb : Db := ⟨[], [], []⟩

/-- Example: the datatypes `VECTOR:INT:2` and `STRING:12`. -/
def exDeclared : List Text := [vecIri "INT".toList [2], "http://www.osp-core.com/cuba#_datatypes/STRING-12".toList]

theorem exDeclared_custom : customDatatypes exDeclared = exDeclared := by decide +kernel

theorem exDeclared_supp : ∀ dt ∈ customDatatypes exDeclared, ∃ cols, Supp dt cols := by
  rw [exDeclared_custom]
  intro dt hd
  simp only [exDeclared, List.mem_cons, List.not_mem_nil, or_false] at hd
  rcases hd with rfl | rfl
  · exact ⟨_, .vector .int (by simp)⟩
  · exact ⟨_, .limited "12".toList (by decide)⟩

/-- The hypotheses of the theorems hold in a non-trivial case: two custom datatypes on an empty sqlite database. -/
theorem example_ok : (initDb 2000 (.ok ()) exOrder exDeclared emptyDb).1 = .ok () := by
  rw [init_ok_iff exOrder exDeclared_supp]
  intro t i h
  refine Or.inr ?_
  cases h with
  | fixed hf =>
    have : ∀ x ∈ fixedTables, x.1.cols.length ≤ 2000 := by decide +kernel
    exact this _ hf
  | @value dt name cols hd hc hn =>
    show cols.length + 1 + 1 ≤ 2000
    rw [exDeclared_custom] at hd
    have h1 : ∀ {c}, Supp dt c → c.length ≤ 1998 → cols.length + 1 + 1 ≤ 2000 := by
      intro c hc' hl
      rw [supp_unique hc hc']
      omega
    rcases hd with hd | hd
    · simp only [exDeclared, List.mem_cons, List.not_mem_nil, or_false] at hd
      rcases hd with rfl | rfl
      · exact h1 (.vector .int (by simp)) (by rw [List.length_map, List.length_range]; decide)
      · exact h1 (.limited "12".toList (by decide)) (by decide)
    · obtain ⟨a, ha⟩ := standard_supp dt hd
      exact h1 ha (by show 1 ≤ 1998; omega)

/-- The table of `VECTOR:INT:2` is there. -/
theorem example_vector : ∃ t ∈ (initDb 2000 (.ok ()) exOrder exDeclared emptyDb).2.tables, t.name = "DATA_V1_VECTOR-INT-2".toList ∧
    t.cols = [("s".toList, some .integer), ("p".toList, some .integer), ("o___0".toList, some .integer), ("o___1".toList, some .integer)] := by
  obtain ⟨new, h1, -, h3⟩ := init_tables_partial exOrder exDeclared_supp emptyDb example_ok
  refine ⟨valueTable "DATA_V1_VECTOR-INT-2".toList ((List.range (shapeSize [2])).map (fun k => ("o___".toList ++ dec k, some .integer))), ?_, rfl, by decide +kernel⟩
  rw [h1]
  refine List.mem_append.2 (Or.inr ((h3 _).2 ⟨⟨_, .value (dt := vecIri "INT".toList [2]) (Or.inl ?_) (.vector .int (by simp)) (by decide +kernel)⟩, fun u hu => (nomatch hu)⟩))
  rw [exDeclared_custom]
  exact List.mem_cons_self

/-- Finding: a matrix of 50 × 50 numbers needs more columns than sqlite allows, so that no session can be opened on a new database, although no object uses the attribute. -/
theorem wide_vector_fails : (initDb 2000 (.ok ()) exOrder [vecIri "FLOAT".toList [50, 50]] emptyDb).1 ≠ .ok () := by
  have hc : customDatatypes [vecIri "FLOAT".toList [50, 50]] = [vecIri "FLOAT".toList [50, 50]] := by decide +kernel
  have hs : ∀ dt ∈ customDatatypes [vecIri "FLOAT".toList [50, 50]], ∃ cols, Supp dt cols := by
    rw [hc]
    intro dt hd
    cases List.mem_singleton.1 hd
    exact ⟨_, .vector .float (by simp)⟩
  rw [Ne, init_ok_iff exOrder hs]
  intro h
  obtain ⟨name, hn⟩ := supp_table (Supp.vector (sh := [50, 50]) .float (by simp))
  rcases h _ _ (.value (Or.inl (by rw [hc]; exact List.mem_cons_self)) (Supp.vector (sh := [50, 50]) .float (by simp)) hn) with ⟨u, hu, -⟩ | h
  · cases hu
  · simp only [valueTable, List.length_cons, List.length_map, List.length_range] at h
    revert h
    decide

/-- The statement for the objects. -/
theorem text_cuds : createText "OSP_V1_CUDS".toList [("cuds_idx".toList, some .integer), ("uid".toList, some .text)] ["cuds_idx".toList] [] =
    "CREATE TABLE IF NOT EXISTS `OSP_V1_CUDS` (`cuds_idx` `INTEGER`, `uid` `TEXT`, PRIMARY KEY(`cuds_idx`));".toList := by decide +kernel

/-- The statement for flags. -/
theorem text_boolean : createText "DATA_V1_XSD_boolean".toList [("s".toList, some .integer), ("o".toList, some .numeric), ("x".toList, some .real), ("y".toList, none)] [] [("s".toList, ("A".toList, "b".toList))] =
    "CREATE TABLE IF NOT EXISTS `DATA_V1_XSD_boolean` (`s` `INTEGER`, `o` `BOOLEAN`, `x` `REAL`, y, FOREIGN KEY(`s`) REFERENCES `A`(`b`));".toList := by decide +kernel

/-- The statement for the index of the objects. -/
theorem text_index : indexText "OSP_V1_RELATIONS".toList ["s".toList, "p".toList] = "CREATE INDEX IF NOT EXISTS `idx_OSP_V1_RELATIONS_s_p` ON `OSP_V1_RELATIONS`(`s`, `p`)".toList := by decide +kernel

/-- A session with a root, two further objects and links. Example. -/
def exSess : Cuds.Sess := (Cuds.run Cuds.exOnto {} [.create 1 5 [(7, 10)], .create 2 5 [(7, 20)], .create 3 5 [(7, 30)], .add 1 [2] (some 1) none, .add 2 [3] (some 1) none]).2

theorem exSess_reachable : Cuds.Reachable Cuds.exOnto exSess := by
  refine Export.reachable_run _ _ .init ?_
  repeat' constructor
  all_goals decide

/-- Example: the session with an initialised database that has rows in all tables. -/
def exWorld : World Nat := ⟨exSess, true, (initDb 2000 (.ok ()) exOrder exDeclared emptyDb).2, fun _ => [1, 2]⟩

/-- The hypotheses of `clear_exact` hold for it; the session has six triples of links and loses them; the rows of the vectors are gone, those of a foreign table stay. -/
theorem example_clear : exSess.root = some 1 ∧ 1 ∈ exSess.reg ∧ exSess.g.length = 10 ∧ (clearLocal Cuds.exOnto exSess).st.g = [⟨1, .attr 7, .val 10⟩, ⟨1, .type, .cls 5⟩] ∧
    (clear Cuds.exOnto 2000 (fun _ => none) (.ok ()) exOrder exDeclared exWorld).2.rows "DATA_V1_VECTOR-INT-2".toList = [] ∧
    (clear Cuds.exOnto 2000 (fun _ => none) (.ok ()) exOrder exDeclared exWorld).2.rows "somebody's table".toList = [1, 2] := by
  obtain ⟨new, i2, -, i3⟩ := init_tables_partial exOrder exDeclared_supp emptyDb example_ok
  have hinit : ∀ t i, Required (customDatatypes exDeclared) t i → ∃ u ∈ exWorld.db.tables, u.name = t.name := by
    intro t i h
    refine ⟨t, ?_, rfl⟩
    show t ∈ (initDb 2000 (.ok ()) exOrder exDeclared emptyDb).2.tables
    rw [i2]
    exact List.mem_append.2 (Or.inr ((i3 t).2 ⟨⟨i, h⟩, fun u hu => (nomatch hu)⟩))
  obtain ⟨-, -, -, hrows, -⟩ := clear_exact (R := Nat) (w := exWorld) Export.exOnto_wf (maxCols := 2000) exOrder exSess_reachable (r := 1) (by decide) (by decide) exDeclared_supp hinit
  refine ⟨by decide, by decide, by decide, by decide, ?_, ?_⟩
  · rw [hrows]
    refine if_pos (Or.inr ⟨?_, ⟨"VECTOR-INT-2".toList, by decide⟩⟩)
    obtain ⟨t, ht, hn, -⟩ := example_vector
    exact ⟨t, ht, hn⟩
  · rw [hrows, if_neg]
    · rfl
    · rintro (h | ⟨-, h⟩)
      · revert h; decide
      · have := List.isPrefixOf_iff_prefix.2 h
        revert this; decide

end Osp.Setup
