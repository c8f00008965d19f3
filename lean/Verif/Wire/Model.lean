import Verif.Common
/-!
# Model of the wire protocol
`osp/core/session/transport/communication_utils.py` and `communication_engine.py`.

Bytes are lists of `UInt8`; a websocket is the list of frames still to be received
(websockets deliver whole frames in order; loss and timeouts are not modelled; connections side by side are the area Frames).
Python `str` is Lean `String`: Python strings with lone surrogates, for which `encode` raises, are excluded.
-/
namespace Osp.Wire

/-- Python itself; models nothing in /repo. -/
abbrev Bytes := List UInt8

/-- communication_utils.py:10 -/
def BLOCK_SIZE : Nat := 4096
/-- communication_utils.py:11 -/
def LEN_FILES_HEADER : List Nat := [5]
/-- communication_engine.py:21 — version, num_blocks, num_files -/
def LEN_HEADER : List Nat := [2, 5, 2]
/-- communication_engine.py:22 (and the literal `version = 1` at line 241) -/
def VERSION : Int := 1

/-- A header element: `Union[int, str]` (communication_utils.py:40). -/
inductive Elem where
  | int (n : Int)
  | str (s : String)
  deriving DecidableEq, Repr

/-- `str.encode("utf-8")`. Python itself; models nothing in /repo. -/
def utf8 (s : String) : Bytes := s.toUTF8.data.toList

/-- `bytes.decode("utf-8")`; `none` is UnicodeDecodeError. Python itself; models nothing in /repo. -/
def unutf8 (b : Bytes) : Option String := String.fromUTF8? ⟨b.toArray⟩

/-- The low `w` base-256 digits of `n`, most significant first: the result part of Python's
`int.to_bytes(length=w, byteorder="big")` (used at communication_utils.py:57). -/
def digitsBE : Nat → Nat → Bytes
  | 0, _ => []
  | w + 1, n => digitsBE w (n / 256) ++ [UInt8.ofNat (n % 256)]

/-- `int.to_bytes(length=w, byteorder="big")` (communication_utils.py:57); OverflowError for negative numbers and
numbers that need more than `w` bytes. -/
def toBytes (w : Nat) (n : Int) : Except PyErr Bytes :=
  if n < 0 then .error .overflowError
  else if n.toNat < 256 ^ w then .ok (digitsBE w n.toNat)
  else .error .overflowError

/-- `int.from_bytes(b, byteorder="big")` (communication_utils.py:30) -/
def fromBytes (b : Bytes) : Nat := b.foldl (fun acc x => acc * 256 + x.toNat) 0

/-- The loop of `encode_header` over `zip(elements, lengths)`, communication_utils.py:54-57. -/
def encodeFixed : List Elem → List Nat → Except PyErr Bytes
  | .int n :: es, w :: ws => do
      let b ← toBytes w n
      let r ← encodeFixed es ws
      .ok (b ++ r)
  | .str _ :: _, _ :: _ => .error .notImplementedError
  | _, _ => .ok []

/-- `encode_header`, communication_utils.py:36-62. -/
def encodeHeader (elements : List Elem) (lengths : List Nat) : Except PyErr Bytes :=
  if lengths.length > elements.length ∨ elements.length > lengths.length + 1 then .error .valueError
  else do
    let r ← encodeFixed elements lengths
    if elements.length > lengths.length then
      match elements.getLast? with
      | some (.str s) => .ok (r ++ utf8 s)
      | _ => .error .notImplementedError
    else .ok r

/-- `decode_header`, communication_utils.py:14-33. The generator is consumed completely by all its callers
(tuple unpacking), so it is modelled as returning the list of all yielded values or the exception. The slice
`bytestring[i:]` is the argument of the recursive call. -/
def decodeHeader (bytestring : Bytes) : List Nat → Except PyErr (List Elem)
  | [] =>
    if bytestring.length > 0 then
      match unutf8 bytestring with
      | some s => .ok [.str s]
      | none => .error .unicodeDecodeError
    else .ok []
  | w :: ws =>
    if w > bytestring.length then .error .indexError
    else do
      let rest ← decodeHeader (bytestring.drop w) ws
      .ok (.int (fromBytes (bytestring.take w)) :: rest)

/-- `int(math.ceil(n / bs))`, communication_utils.py:77 and :144. Python divides floats; for sizes below 2^53 the float
result is exact enough and larger messages are out of scope (simplification: exact natural number division). -/
def ceilDiv (n bs : Nat) : Nat := (n + bs - 1) / bs

/-- `split_message`, communication_utils.py:65-85: number of blocks and the blocks of the generator. -/
def splitMessage (msg : String) (blockSize : Nat := BLOCK_SIZE) : Nat × List Bytes :=
  let b := utf8 msg
  let numBlocks := ceilDiv b.length blockSize
  (numBlocks, (List.range numBlocks).map fun i => (b.take ((i + 1) * blockSize)).drop (i * blockSize))

/-- `await websocket.recv()`: the next frame, or ConnectionClosed if there is none. websockets, used at communication_utils.py 88-105; nothing in /repo. -/
def recv : List Bytes → Except PyErr (Bytes × List Bytes)
  | [] => .error .connectionClosed
  | f :: fs => .ok (f, fs)

/-- Receive and concatenate `n` frames (the loops at communication_utils.py:99-102 and :178-182). -/
def recvMany : Nat → List Bytes → Except PyErr (Bytes × List Bytes)
  | 0, fs => .ok ([], fs)
  | n + 1, fs => do
    let (f, fs) ← recv fs
    let (r, fs) ← recvMany n fs
    .ok (f ++ r, fs)

/-- `join_message`, communication_utils.py:88-105. -/
def joinMessage (numBlocks : Nat) (ws : List Bytes) : Except PyErr (String × List Bytes) := do
  let (data, ws) ← recvMany numBlocks ws
  match unutf8 data with
  | some s => .ok (s, ws)
  | none => .error .unicodeDecodeError

/-- `os.path.basename` on posix: what follows the last `/`. Python itself; models nothing in /repo. -/
def basename (p : String) : String :=
  String.ofList ((p.toList.reverse.takeWhile (· ≠ '/')).reverse)

/-- A file on disk: path and contents. communication_utils.py 130-155. -/
structure File where
  path : String
  content : Bytes
  deriving DecidableEq, Repr

/-- `iter(lambda: f.read(BLOCK_SIZE), b"")`, communication_utils.py:151: successive reads until an empty one. -/
def readBlocks (bs : Nat) (content : Bytes) : List Bytes :=
  match _h : content.take bs with
  | [] => []
  | x :: xs => (x :: xs) :: readBlocks bs (content.drop bs)
termination_by content.length
decreasing_by
  cases bs with
  | zero => simp at _h
  | succ n =>
    cases content with
    | nil => simp at _h
    | cons _ _ => simp; omega

/-- What a sending generator put on the socket before it finished or raised. Modelling device. -/
structure Sent where
  frames : List Bytes
  err : Option PyErr := none
  deriving DecidableEq, Repr

/-- Sequential composition of generators: nothing more is sent after an exception. Modelling device. -/
def Sent.andThen (a b : Sent) : Sent :=
  match a.err with
  | some e => ⟨a.frames, some e⟩
  | none => ⟨a.frames ++ b.frames, b.err⟩

/-- One iteration of `encode_files`, communication_utils.py:142-154. `none`: the path does not exist and
`os.path.getsize` raises FileNotFoundError before anything of this file is sent. The size used in the header and the
contents read afterwards are those of the same file version (files are not modified while being sent). -/
def encodeFile : Option File → Sent
  | none => ⟨[], some .fileNotFoundError⟩
  | some f =>
    match encodeHeader [.int (ceilDiv f.content.length BLOCK_SIZE), .str (basename f.path)] LEN_FILES_HEADER with
    | .error e => ⟨[], some e⟩
    | .ok h => ⟨h :: readBlocks BLOCK_SIZE f.content, none⟩

/-- `encode_files`, communication_utils.py:130-154. -/
def encodeFiles : List (Option File) → Sent
  | [] => ⟨[], none⟩
  | f :: fs => (encodeFile f).andThen (encodeFiles fs)

/-- The contents of a directory (regular files only) and a table base name → hash. communication_utils.py 157-199. -/
structure RecvState (H : Type) where
  dir : String → Option Bytes
  hashes : String → Option H

/-- Python itself; models nothing in /repo. -/
def upd {β : Type} (f : String → Option β) (k : String) (v : β) : String → Option β :=
  fun k' => if k' = k then some v else f k'

/-- Whether `open(os.path.join(directory, name), "wb")` can succeed for a slash-free name: the empty name, `.` and `..`
denote directories and raise IsADirectoryError. The operating system; nothing in /repo. -/
def isFileName (n : String) : Bool := n ≠ "" ∧ n ≠ "." ∧ n ≠ ".."

/-- One iteration of `receive_files`, communication_utils.py:168-184. `sha` is sha256 of the concatenation of the blocks.
`file_hashes[filename]` holds the (unfinished) hash object during the iteration; only its final value is modelled. -/
def receiveFile {H : Type} (sha : Bytes → H) (st : RecvState H) (ws : List Bytes) :
    Except PyErr (RecvState H × List Bytes) := do
  let (h, ws) ← recv ws
  let els ← decodeHeader h LEN_FILES_HEADER
  match els with
  | [.int numBlocks, .str filename] =>
    let filename := basename filename
    if isFileName filename then
      let (data, ws) ← recvMany numBlocks.toNat ws
      .ok (⟨upd st.dir filename data, upd st.hashes filename (sha data)⟩, ws)
    else .error .isADirectoryError
  | _ => .error .valueError

/-- `receive_files`, communication_utils.py:157-184. -/
def receiveFiles {H : Type} (sha : Bytes → H) : Nat → RecvState H → List Bytes → Except PyErr (RecvState H × List Bytes)
  | 0, st, ws => .ok (st, ws)
  | n + 1, st, ws => do
    let (st, ws) ← receiveFile sha st ws
    receiveFiles sha n st ws

/-- `check_hash`, transport_utils.py:363-383, on a file with the given contents. -/
def checkHash {H : Type} [DecidableEq H] (sha : Bytes → H) (f : File) (hashes : String → Option H) :
    Bool × (String → Option H) :=
  let h := sha f.content
  let filename := basename f.path
  match hashes filename with
  | some h' => if h' = h then (true, hashes) else (false, upd hashes filename h)
  | none => (false, upd hashes filename h)

/-- `filter_files`, communication_utils.py:108-127; `none` entries are paths that do not exist. -/
def filterFiles {H : Type} [DecidableEq H] (sha : Bytes → H) :
    List (Option File) → (String → Option H) → List File × (String → Option H)
  | [], hs => ([], hs)
  | none :: fs, hs => filterFiles sha fs hs
  | some f :: fs, hs =>
    let (known, hs) := checkHash sha f hs
    let (r, hs) := filterFiles sha fs hs
    if known then (r, hs) else (f :: r, hs)

/-- `CommunicationEngineClient._encode`, communication_engine.py:228-245: everything the client sends for one request. The client
does not filter its files. -/
def clientEncode (command data : String) (files : List (Option File)) : Sent :=
  let (numBlocks, blocks) := splitMessage data
  match encodeHeader [.int VERSION, .int numBlocks, .int files.length, .str command] LEN_HEADER with
  | .error e => ⟨[], some e⟩
  | .ok h => (Sent.mk (h :: blocks) none).andThen (encodeFiles files)

/-- A request as decoded by the server. communication_engine.py 112-141. -/
structure Request (H : Type) where
  command : String
  data : String
  st : RecvState H

/-- `CommunicationEngineServer._decode`, communication_engine.py:112-140. -/
def serverDecode {H : Type} (sha : Bytes → H) (st : RecvState H) (ws : List Bytes) :
    Except PyErr (Request H × List Bytes) := do
  let (h, ws) ← recv ws
  let els ← decodeHeader h LEN_HEADER
  match els with
  | [.int version, .int numBlocks, .int numFiles, .str command] =>
    if version ≠ VERSION then .error .notImplementedError
    else
      let (data, ws) ← joinMessage numBlocks.toNat ws
      let (st, ws) ← receiveFiles sha numFiles.toNat st ws
      .ok (⟨command, data, st⟩, ws)
  | _ => .error .valueError

/-- The server's sending part of `_serve`, communication_engine.py:91-103. Returns what is sent and the new hash table. -/
def serverRespond {H : Type} [DecidableEq H] (sha : Bytes → H) (hashes : String → Option H) (response : String)
    (files : List (Option File)) : Sent × (String → Option H) :=
  let (files, hashes) := filterFiles sha files hashes
  let (numBlocks, blocks) := splitMessage response
  match encodeHeader [.int VERSION, .int numBlocks, .int files.length] LEN_HEADER with
  | .error e => (⟨[], some e⟩, hashes)
  | .ok h => ((Sent.mk (h :: blocks) none).andThen (encodeFiles (files.map some)), hashes)

/-- The receiving part of `CommunicationEngineClient._request`, communication_engine.py:212-226. The version of a response
is unpacked but not checked. `file_hashes` is not passed, so it starts empty and is dropped. -/
def clientDecode {H : Type} (sha : Bytes → H) (dir : String → Option Bytes) (ws : List Bytes) :
    Except PyErr (String × (String → Option Bytes) × List Bytes) := do
  let (h, ws) ← recv ws
  let els ← decodeHeader h LEN_HEADER
  match els with
  | [.int _, .int numBlocks, .int numFiles] =>
    let (data, ws) ← joinMessage numBlocks.toNat ws
    let (st, ws) ← receiveFiles sha numFiles.toNat ⟨dir, fun _ => none⟩ ws
    .ok (data, st.dir, ws)
  | _ => .error .valueError

end Osp.Wire
