import Verif.Files.Props
/-!
# The files of a message (C98): a concrete case
-/
namespace Osp.Files
open Osp.Wire Osp.Transport

/-- Example: three file objects; the file of 3 already is where the client keeps its files. -/
def exWorld : World := ⟨⟨fun p => if p = "/home/a.txt" then some [1, 2] else if p = "/home/b.txt" then some [3] else if p = "/c/00000000000000000000000000000003-c" then some [4] else none,
  fun d => d = "/c"⟩, fun u => if u = 1 then "/home/a.txt" else if u = 2 then "/home/b.txt" else "/c/00000000000000000000000000000003-c"⟩

/-- Example: 1 is added, 2 is an argument nested in a dictionary, 1 and 3 are arguments too; a deleted object and an object that is no file are not sent. -/
def exBuffers : Buffers := ⟨[.cuds 1 true, .cuds 9 false], [], [.cuds 7 true]⟩

/-- Example. -/
def exItems : List (String × Arg) := [("args", .seq [.plain, .dict [.seq [.cuds 2 true], .cuds 1 true]]), ("kwargs", .dict [.cuds 3 true])]

/-- The message of the example is sent with the two files that are not there yet, each once. -/
theorem ex_sent : (serializeFiles (some "/c") (some exBuffers) exItems exWorld).2 = .ok ["/c/00000000000000000000000000000001-a.txt", "/c/00000000000000000000000000000002-b.txt"] := by
  decide +kernel

/-- The example meets the hypotheses of `client_files`. -/
theorem ex_hyps : '\\' ∉ "/c".toList ∧ exWorld.fs.dir "/c" = true ∧ (∃ w' ms, serializeFiles (some "/c") (some exBuffers) exItems exWorld = (w', .ok ms) ∧ ms.length = 2) ∧
    InSome 2 (carried (some exBuffers) exItems) := by
  refine ⟨by decide, by decide, ?_, ?_⟩
  · have h := ex_sent
    generalize serializeFiles (some "/c") (some exBuffers) exItems exWorld = r at h
    obtain ⟨w', x⟩ := r
    exact ⟨w', _, by rw [show x = _ from h], rfl⟩
  exact ⟨.seq [.plain, .dict [.seq [.cuds 2 true], .cuds 1 true]], by simp [carried, exItems],
    .seq (List.mem_cons_of_mem _ List.mem_cons_self) (.dict List.mem_cons_self (.seq List.mem_cons_self (.here _)))⟩

/-- The server sends the files of the example where they are, one of them twice. -/
theorem ex_server : (serializeFiles none (some exBuffers) exItems exWorld).2 = .ok ["/home/a.txt", "/home/b.txt", "/home/a.txt", "/c/00000000000000000000000000000003-c"] := by
  decide +kernel

/-- Something that cannot be iterated over is refused. -/
theorem ex_refused : getFileCuds (.seq [.plain, .dict [.opaque]]) = .error .typeError :=
  (fileCuds_exact _).2 (fun h => h (.seq (List.mem_cons_of_mem _ List.mem_cons_self) (.dict List.mem_cons_self (.here _))))

/-- The fingerprints of a directory with a file of two bytes, an empty file and a subdirectory. -/
theorem ex_hashDir : getHashDir (fun b => b.length) [("a", .file [1, 2]), ("d", .other), ("e", .file [])] (fun _ => none) "a" = some 2 ∧
    getHashDir (fun b => b.length) [("a", .file [1, 2]), ("d", .other), ("e", .file [])] (fun _ => none) "d" = none ∧
    getHashDir (fun b => b.length) [("a", .file [1, 2]), ("d", .other), ("e", .file [])] (fun _ => none) "e" = some 0 := by
  refine ⟨(hashDir_exact _ _ (by decide) _ _).2 ⟨[1, 2], by simp, rfl⟩, ?_, (hashDir_exact _ _ (by decide) _ _).2 ⟨[], by simp, rfl⟩⟩
  rw [(getHashDir_acc _ _ _ _ (by decide)).2 (by simp)]

end Osp.Files
