import Verif.Transport.Files
/-!
# The files of a message (C98)

`get_file_cuds`, the calls of `move_files` in `serialize_buffers` and `deserialize_buffers`, `get_hash` and `get_hash_dir` of `osp/core/session/transport/transport_utils.py`
(here util). The client (`transport_session_client.py`, 70-132) moves the files of the objects it sends to its own directory and sends the files moved; the server
(`transport_session_server.py`, 116-160) sends the files of the objects it sends where they are. Files, paths and `move_files` for one object are those of `Verif/Transport/Files.lean`.
Not modelled: exceptions of `serializable` and `deserialize` between the moves, and that `cuds.path = …` tells the session about an update.
-/
namespace Osp.Files
open Osp.Wire Osp.Transport

/-- What `get_file_cuds` tells apart, util:273-280. A CUDS object has a uid and may be a file; `plain` are texts, numbers, UUIDs, entities and None; dictionaries have values, everything
else is iterated over (lists, tuples, sets, views; bytes are a sequence of numbers); `opaque` cannot be iterated over. -/
inductive Arg where
  | cuds (u : Nat) (isFile : Bool)
  | plain
  | dict (values : List Arg)
  | seq (items : List Arg)
  | opaque

mutual
/-- `get_file_cuds`, util:262-281: the uids of the file objects. -/
def getFileCuds : Arg → Except PyErr (List Nat)
  | .cuds u f => .ok (if f then [u] else [])
  | .plain => .ok []
  | .dict l => getFileCudsList l
  | .seq l => getFileCudsList l
  | .opaque => .error .typeError
/-- The comprehension of `get_file_cuds`, util:281. -/
def getFileCudsList : List Arg → Except PyErr (List Nat)
  | [] => .ok []
  | a :: l => match getFileCuds a with
    | .error e => .error e
    | .ok x => match getFileCudsList l with
      | .error e => .error e
      | .ok y => .ok (x ++ y)
end

/-- The file system and the paths of the file objects (attribute `path`), util:142-165. Modelling device. -/
structure World where
  fs : FS
  path : Nat → String

/-- `cuds.path = p`, util:165. -/
def World.setPath (w : World) (fs : FS) (u : Nat) (p : String) : World := ⟨fs, fun v => if v = u then p else w.path v⟩

/-- `move_files` with a target directory, util:141-182: one object after the other, each with the path it has then. After an exception the files moved before stay moved. -/
def moveAll (temp : Option String) (target : String) : List Nat → World → World × Except PyErr (List String)
  | [], w => (w, .ok [])
  | u :: us, w => match moveOne temp target w.fs u (w.path u) with
    | .error e => (w, .error e)
    | .ok (fs, p, m) => match moveAll temp target us (w.setPath fs u p) with
      | (w, .error e) => (w, .error e)
      | (w, .ok ms) => (w, .ok (m.toList ++ ms))

/-- `move_files`, util:124-182: without a target nothing is moved, and the paths of all are the result (139-140). -/
def move (temp target : Option String) (us : List Nat) (w : World) : World × Except PyErr (List String) := match target with
  | none => (w, us.mapM (fun u => convertPath .posix (w.path u)))
  | some t => moveAll temp t us w

/-- `files += move_files(get_file_cuds(x), …)` for one value after the other, util:50-53 and 64. -/
def moveEach (temp target : Option String) : List Arg → World → World × Except PyErr (List String)
  | [], w => (w, .ok [])
  | a :: l, w => match getFileCuds a with
    | .error e => (w, .error e)
    | .ok us => match move temp target us w with
      | (w, .error e) => (w, .error e)
      | (w, .ok ms) => match moveEach temp target l w with
        | (w, .error e) => (w, .error e)
        | (w, .ok ns) => (w, .ok (ms ++ ns))

/-- The buffers of a session. buffers.py 24-60. -/
structure Buffers where
  added : List Arg
  updated : List Arg
  deleted : List Arg

/-- The files of `serialize_buffers`, util:46-68: of the added, of the updated, of the additional items in their order. -/
def serializeFiles (target : Option String) (buffers : Option Buffers) (items : List (String × Arg)) (w : World) : World × Except PyErr (List String) :=
  moveEach none target ((match buffers with
    | none => []
    | some b => [.seq b.added, .seq b.updated]) ++ items.map (·.2)) w

/-- The moves of `deserialize_buffers`, util:102-111: for every item of the message but the deleted. -/
def deserializeFiles (temp target : Option String) (data : List (String × Arg)) (w : World) : World × Except PyErr (List String) :=
  moveEach temp target ((data.filter (fun x => x.1 != "deleted")).map (·.2)) w

/-! ### fingerprints -/

/-- The size of a block, util:395. -/
def bufSize : Nat := 4096

/-- The loop of `get_hash`, util:398-402: read a block, stop if it is empty, feed it to the hash object. A hash object is the bytes it was fed (hashlib: several updates are one update with
the concatenation). Every round but the last takes at least a byte, hence the measure. -/
def hashLoop (fed rest : Bytes) : Bytes :=
  match _h : rest.take bufSize with
  | [] => fed
  | c :: cs => hashLoop (fed ++ (c :: cs)) (rest.drop bufSize)
termination_by rest.length
decreasing_by
  have : rest ≠ [] := by rintro rfl; simp at _h
  have := List.length_pos_iff.2 this
  rw [List.length_drop]
  have : 0 < bufSize := by decide
  omega

/-- `get_hash`, util:386-403, of a file with the given content. -/
def getHash {H : Type} (sha : Bytes → H) (content : Bytes) : H := sha (hashLoop [] content)

/-- An entry of a directory: a regular file with its content, or something else. The operating system; nothing in /repo. -/
inductive Entry where
  | file (b : Bytes)
  | other

/-- `get_hash_dir`, util:345-360: the entries of a directory as `os.listdir` lists them. -/
def getHashDir {H : Type} (sha : Bytes → H) : List (String × Entry) → (String → Option H) → String → Option H
  | [], r => r
  | (n, .file b) :: l, r => getHashDir sha l (upd r n (getHash sha b))
  | (_, .other) :: l, r => getHashDir sha l r

end Osp.Files
