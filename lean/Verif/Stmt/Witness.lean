import Verif.Stmt.Insert
/-!
# SQL statements: concrete cases (C89)
-/
namespace Osp.Stmt
open Osp.Sql

theorem pyEq_refl {V : Type} : ∀ c : Cond V, PyEq c c
  | .eq t c v d => .eq t c v d
  | .join a b c d => .join a b c d
  | .and cs => .and cs cs id id (fun _ h => h) (fun a _ => pyEq_refl a) (fun _ h => h) (fun a _ => pyEq_refl a)
termination_by c => sizeOf c
decreasing_by
  all_goals
    have := List.sizeOf_lt_of_mem ‹_ ∈ cs›
    simp only [Cond.and.sizeOf_spec]
    omega

/-- A set that keeps everything in order. Example. -/
def listSet (V : Type) : PySet V := ⟨id, fun l => ⟨l, .refl _, .refl _⟩, fun _ c h => ⟨c, h, pyEq_refl c⟩⟩

/-- A set that is iterated backwards. Example. -/
def backSet (V : Type) : PySet V := ⟨List.reverse, fun l => ⟨l, List.reverse_perm l, .refl _⟩, fun _ c h => ⟨c, List.mem_reverse.2 h, pyEq_refl c⟩⟩

open Classical in
/-- Removal of elements that come again. Example. -/
noncomputable def once {α : Type} : List α → List α
  | [] => []
  | a :: l => if a ∈ l then once l else a :: once l

theorem once_sublist {α : Type} : ∀ l : List α, (once l).Sublist l
  | [] => .refl _
  | a :: l => by
    unfold once
    split
    · exact (once_sublist l).cons a
    · exact (once_sublist l).cons_cons a

theorem mem_once {α : Type} {a : α} : ∀ {l : List α}, a ∈ l → a ∈ once l
  | b :: l, h => by
    unfold once
    split
    · rename_i hb
      rcases List.mem_cons.1 h with rfl | h
      · exact mem_once hb
      · exact mem_once h
    · rcases List.mem_cons.1 h with rfl | h
      · exact List.mem_cons_self
      · exact List.mem_cons_of_mem _ (mem_once h)

/-- A set without duplicates. Example. -/
noncomputable def onceSet (V : Type) : PySet V := ⟨once, fun l => ⟨once l, .refl _, once_sublist l⟩, fun _ c h => ⟨c, mem_once h, pyEq_refl c⟩⟩

/-- A triple store with one CUDS object that has a type, a relationship to itself, a text and a vector. Example. -/
def exDb : Tables.Db Text (Dat Nat) where
  ns := [(1, "http://a#".toList)]
  cuds := [(1, 70), (2, 71)]
  ents := [(1, (1, "City".toList)), (2, (1, "part".toList)), (3, (1, "at".toList))]
  types := [(1, 1)]
  rels := [(1, 2, 2), (2, 2, 1)]
  dts := [xsdString, vecIri "INT".toList [2]]
  data := fun d => if d = xsdString then [(1, 3, .one 5), (2, 3, .one 6)] else if d = vecIri "INT".toList [2] then [(1, 3, .many [8, 9]), (2, 3, .many [8, 7])] else []

/-- Its tables. Example. -/
def exBase : Base Nat := fun t =>
  if t = "OSP_V1_CUDS".toList then exDb.cuds.map cudsRow
  else if t = "OSP_V1_ENTITIES".toList then exDb.ents.map entRow
  else if t = "OSP_V1_TYPES".toList then exDb.types.map typeRow
  else if t = "OSP_V1_RELATIONS".toList then exDb.rels.map relRow
  else if dataTableName xsdString = .ok t then (exDb.data xsdString).map dataRow
  else if dataTableName (vecIri "INT".toList [2]) = .ok t then (exDb.data (vecIri "INT".toList [2])).map dataRow
  else []

theorem ex_names : dataTableName xsdString = .ok "DATA_V1_XSD_string".toList ∧ dataTableName (vecIri "INT".toList [2]) = .ok "DATA_V1_VECTOR-INT-2".toList := by
  constructor <;> decide +kernel

theorem exEncodes : Encodes exBase exDb where
  cuds := by unfold exBase; rw [if_pos rfl]
  ents := by unfold exBase; rw [if_neg (by decide), if_pos rfl]
  types := by unfold exBase; rw [if_neg (by decide), if_neg (by decide), if_pos rfl]
  rels := by unfold exBase; rw [if_neg (by decide), if_neg (by decide), if_neg (by decide), if_pos rfl]
  data := by
    intro d hd t ht
    simp only [exDb, List.mem_cons, List.not_mem_nil, or_false] at hd
    rcases hd with rfl | rfl
    · rw [ex_names.1] at ht
      cases ht
      unfold exBase
      rw [if_neg (by decide), if_neg (by decide), if_neg (by decide), if_neg (by decide), if_pos ex_names.1]
    · rw [ex_names.2] at ht
      cases ht
      unfold exBase
      rw [if_neg (by decide), if_neg (by decide), if_neg (by decide), if_neg (by decide), if_neg (by rw [ex_names.1]; decide), if_pos ex_names.2]
  typed := by
    intro d hd r hr
    simp only [exDb, List.mem_cons, List.not_mem_nil, or_false] at hd
    rcases hd with rfl | rfl
    · simp only [exDb, if_true, List.mem_cons, List.not_mem_nil, or_false] at hr
      rcases hr with rfl | rfl <;> exact isVec_str
    · have hn : ¬ vecIri "INT".toList [2] = xsdString := by decide +kernel
      simp only [exDb, if_neg hn, if_true, List.mem_cons, List.not_mem_nil, or_false] at hr
      rcases hr with rfl | rfl <;> exact ⟨"INT".toList, [2], rfl, by decide, by simp, by decide⟩

/-- `select_types`, `select_rels`, `delete_types`, `delete_rels` and the lookups apply to the example, whatever the order of the sets. -/
example := select_types (onceSet _) exBase exDb exEncodes (some 70) none (some (1, "City".toList)) []
example := select_rels (backSet _) exBase exDb exEncodes none (some (1, "part".toList)) (some 71) []
example := delete_types (backSet _) exBase exDb exEncodes (some 1) none none []
example := delete_rels (onceSet _) exBase exDb exEncodes none (some 2) (some 1)
example := lookup_cuds (onceSet _) exBase exDb.cuds exEncodes.cuds 71
example := lookup_entity (backSet _) exBase exDb.ents exEncodes.ents 1 "at".toList
example := delete_all (backSet _) (t := typesTable) (noSemi_names _ (by simp)) (exBase typesTable)

/-- `select_data` and `delete_data` apply to a vector. -/
example := select_data (onceSet _) exBase exDb exEncodes none (some (1, "at".toList)) (some (.many [8, 9])) (d := vecIri "INT".toList [2]) (by simp [exDb]) ex_names.2 (by decide +kernel)
  (.inr ⟨_, _, rfl, by decide, by simp⟩) (by intro v h; cases h; exact ⟨_, _, rfl, by decide, by simp, by decide⟩)
example := delete_data (backSet _) exBase exDb exEncodes none (some 3) (some (.many [8, 9])) (d := vecIri "INT".toList [2]) (by simp [exDb]) ex_names.2 (by decide +kernel)
  (by intro v h; cases h; exact ⟨_, _, rfl, by decide, by simp, by decide⟩)
example := insert_data ex_names.2 (by decide +kernel) 1 3 (.many [4, 5] : Dat Nat) ⟨_, _, rfl, by decide, by simp, by decide⟩

/-- The rows are not trivial: of the two vectors one is found, one relationship, one type. -/
example : (Tables.selectData exDb (vecIri "INT".toList [2]) ⟨none, some (1, "at".toList), none, none, some (.many [8, 9])⟩).map rowCells =
    [[.uid 70, .idx 1, .txt "at".toList, .val 8, .val 9]] := by decide +kernel
example : (Tables.selectRels exDb ⟨none, some (1, "part".toList), some 71, none, none⟩).map (rowCells (Y := Nat)) = [[.uid 70, .idx 1, .txt "part".toList, .uid 71]] := by decide +kernel

/-- The text of a statement with a vector. -/
example : (dbSelect (Y := Nat) ⟨["ts".toList, "d".toList], [("ts".toList, "OSP_V1_CUDS".toList), ("d".toList, "d".toList)], [("d".toList, ["o___0".toList, "o___1".toList]), ("ts".toList, ["uid".toList])], [],
    some (.and [.join "d".toList "s".toList "ts".toList "cuds_idx".toList, .and [.eq "d".toList "o___0".toList (.val 8) none, .eq "d".toList "o___1".toList (.val 9) none]])⟩).1 =
    "SELECT `ts`.`uid`, `d`.`o___0`, `d`.`o___1` FROM `OSP_V1_CUDS` AS `ts`, `d` AS `d` WHERE `d`.`s` = `ts`.`cuds_idx` AND `d`.`o___0`=:cond10_value AND `d`.`o___1`=:cond11_value;".toList := by
  decide +kernel

/-- `where_means` applies to a nested condition with a vector. -/
example : Fits (.and [.join "a".toList "s".toList "b".toList "i".toList, .and [.eq "a".toList "o".toList (.vec [1, 2]) (some (vecIri "INT".toList [2]))]] : Cond (Cell Nat)) := by
  refine ⟨trivial, ⟨⟨_, rfl, .inr ⟨"INT".toList, [2], [1, 2], rfl, by decide, by simp, rfl, by decide⟩⟩, trivial⟩, trivial⟩

/-- `insert_statement`. -/
example : (dbInsert "t".toList ["a".toList, "b".toList] [.idx 1, .val 7] : Text × (Text → Option (Cell Nat))).1 = "INSERT INTO `t` (`a`, `b`) VALUES (:val_0, :val_1);".toList := by decide +kernel

/-- Finding: an alias is used only as a name of the query: an empty alias means the name of the table, so that a table cannot be joined with itself under an empty alias. -/
example (q : Query Nat) (h : q.tables = [("t".toList, "t".toList)]) : ∃ e, q.join "t".toList [] [] (some []) = .error e :=
  join_used_alias q "t".toList [] [] (some []) ⟨_, by rw [h]; exact List.mem_singleton.2 rfl, rfl⟩

end Osp.Stmt
