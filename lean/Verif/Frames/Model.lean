import Verif.Wire.Model
/-!
# Model of the server's connections running side by side
`CommunicationEngineServer._serve` and `_decode` (`osp/core/session/transport/communication_engine.py` 66-140) with the loops of
`join_message`, `receive_files` and `encode_files` (`communication_utils.py` 88-184), as coroutines.

asyncio runs one coroutine per connection; a coroutine gives up control only where it awaits `websocket.recv()` or
`websocket.send()`. Each `Pos` is such a place together with the values of the local variables that are used later. An event
is the arrival of a connection or of a frame, a client closing its connection, or the event loop resuming one coroutine,
which then runs to its next await.

Simplifications: a connection is identified with its id (`uuid.uuid4()` never repeats and a websocket object is never served twice);
the hash object that `receive_files` keeps in the table while a file is incomplete is not represented (only the coroutine of the same
connection can see it, and does not); a file is read block by block from what is on the disk at that moment, without the
read-ahead of Python's buffered reader, and a file deleted while it is read appears empty from then on; an abnormal closing
(ConnectionClosedError) has the same effect as a normal one, except for the exception seen by the websockets library.
-/
namespace Osp.Frames
open Osp.Wire

/-- A connection (`connection_id`, communication_engine.py 73-74). -/
abbrev Conn := Nat

/-- A table base name → hash (`file_hashes`, communication_engine.py 75-76). -/
abbrev Table (H : Type) := String → Option H

/-- A directory with regular files (`temp_dir`, communication_engine.py 79). -/
abbrev Dir := String → Option Bytes

/-- `dict[k] = v`. Python itself; nothing in /repo. -/
def put {β : Type} (f : Conn → β) (c : Conn) (v : β) : Conn → β := fun d => if d = c then v else f d

/-- What is behind the connections (the arguments `handle_request` and `handle_disconnect` of communication_engine.py 34-56, and the disk):
`S` is everything all connections share — the sessions, the databases behind them and the files on the disk. `handle` returns the answer and
the paths of the files belonging to it; it does not raise (transport_session_server.py 92-114). -/
structure Backend (S : Type) where
  handle : S → Conn → String → String → Dir → S × String × List String
  leave : S → Conn → S
  read : S → String → Option Bytes

/-- The places where a coroutine waits for a frame. communication_engine.py 127, communication_utils.py 101, 171, 181. -/
inductive Rx where
  /-- communication_engine.py 127: the header of the next request -/
  | header
  /-- communication_utils.py 101: `left + 1` more blocks of the message are to come -/
  | blocks (command : String) (left : Nat) (acc : Bytes) (files : Nat)
  /-- communication_utils.py 171: the header of a file; after it `left` more files are to come -/
  | fileHeader (command data : String) (left : Nat) (dir : Dir)
  /-- communication_utils.py 181: `more + 1` more blocks of this file are to come, and then `left` more files -/
  | fileBlocks (command data : String) (left : Nat) (dir : Dir) (name : String) (more : Nat) (acc : Bytes)

/-- The places where a coroutine waits. communication_engine.py 66-110. -/
inductive Pos where
  | rx (r : Rx)
  /-- communication_engine.py 97-103: waiting for `send`; `parts` of the message and then `files` are still to be sent -/
  | sending (parts : List Bytes) (files : List String)
  /-- communication_engine.py 103, communication_utils.py 150-153: waiting for `send` with the file `path` open and the part before `off` sent -/
  | reading (path : String) (off : Nat) (files : List String)
  /-- communication_engine.py 104-110: the coroutine has ended -/
  | done

/-- What one more frame leads to. Modelling device (the ways `_decode` can go on, communication_engine.py 112-140). -/
inductive Fed (H : Type) where
  | wait (hashes : Table H) (r : Rx)
  | ready (r : Request H)
  | fail (e : PyErr)

/-- The loop head of `receive_files`, communication_utils.py 169, and after the last file `return command, data`,
communication_engine.py 140. -/
def nextFile {H : Type} (command data : String) : Nat → RecvState H → Fed H
  | 0, st => .ready ⟨command, data, st⟩
  | n + 1, st => .wait st.hashes (.fileHeader command data n st.dir)

/-- All blocks of the message are there: `data.decode`, communication_utils.py 103-105, then `receive_files`,
communication_engine.py 139, into a new directory. -/
def gotMessage {H : Type} (command : String) (acc : Bytes) (files : Nat) (hashes : Table H) : Fed H :=
  match unutf8 acc with
  | some s => nextFile command s files ⟨fun _ => none, hashes⟩
  | none => .fail .unicodeDecodeError

/-- A frame is received: the coroutine runs to its next await or to the end of `_decode`. communication_engine.py 112-140,
communication_utils.py 88-105, 157-184. -/
def feed {H : Type} (sha : Bytes → H) (hashes : Table H) : Rx → Bytes → Fed H
  | .header, f =>
    match decodeHeader f LEN_HEADER with
    | .error e => .fail e
    | .ok [.int version, .int numBlocks, .int numFiles, .str command] =>
      if version ≠ VERSION then .fail .notImplementedError
      else match numBlocks.toNat with
        | 0 => gotMessage command [] numFiles.toNat hashes
        | k + 1 => .wait hashes (.blocks command k [] numFiles.toNat)
    | .ok _ => .fail .valueError
  | .blocks command 0 acc files, f => gotMessage command (acc ++ f) files hashes
  | .blocks command (k + 1) acc files, f => .wait hashes (.blocks command k (acc ++ f) files)
  | .fileHeader command data left dir, f =>
    match decodeHeader f LEN_FILES_HEADER with
    | .error e => .fail e
    | .ok [.int numBlocks, .str filename] =>
      let filename := basename filename
      if isFileName filename then
        match numBlocks.toNat with
        | 0 => nextFile command data left ⟨upd dir filename [], upd hashes filename (sha [])⟩
        | k + 1 => .wait hashes (.fileBlocks command data left dir filename k [])
      else .fail .isADirectoryError
    | .ok _ => .fail .valueError
  | .fileBlocks command data left dir name 0 acc, f => nextFile command data left ⟨upd dir name (acc ++ f), upd hashes name (sha (acc ++ f))⟩
  | .fileBlocks command data left dir name (k + 1) acc, f => .wait hashes (.fileBlocks command data left dir name k (acc ++ f))

/-- What the backend is asked to do, in the order in which it happens. Specification device, nothing in /repo. -/
inductive Act where
  | serve (c : Conn)
  | leave (c : Conn)
  deriving DecidableEq, Repr

/-- The server and the sockets of its connections. communication_engine.py 50-57 and the websockets: `pos` the coroutine of each connection
(`none`: there is none yet), `inbox` what has arrived and not been received, `closed` the client has closed the connection, `out`
what was sent. `log` records in which order the backend was called; the code does not keep it. -/
structure World (S H : Type) where
  srv : S
  hashes : Conn → Table H
  pos : Conn → Option Pos
  inbox : Conn → List Bytes
  closed : Conn → Bool
  out : Conn → List Bytes
  log : List Act

/-- A server that was just started. communication_engine.py 50-66. -/
def World.init {S H : Type} (s : S) : World S H :=
  ⟨s, fun _ _ => none, fun _ => none, fun _ => [], fun _ => false, fun _ => [], []⟩

variable {S H : Type} [DecidableEq H]

/-- The `finally` clause of `_serve`, communication_engine.py 106-110. -/
def finish (b : Backend S) (c : Conn) (w : World S H) : World S H :=
  { w with
    hashes := put w.hashes c (fun _ => none)
    pos := put w.pos c (some .done)
    srv := b.leave w.srv c
    log := w.log ++ [.leave c] }

/-- A path handed to `encode_files` or `filter_files` and what is there on the disk. communication_utils.py 117-125, 142-151. -/
def onDisk (b : Backend S) (s : S) (p : String) : Option File := (b.read s p).map (File.mk p)

/-- `await websocket.send(x)`: sends, or raises ConnectionClosed. communication_engine.py 97-103. -/
def send (b : Backend S) (c : Conn) (x : Bytes) (p : Pos) (w : World S H) : World S H :=
  if w.closed c then finish b c w else { w with out := put w.out c (w.out c ++ [x]), pos := put w.pos c (some p) }

/-- A complete request: `handle_request`, `filter_files` and sending the header of the answer, without an await in between.
communication_engine.py 82-100. -/
def answer (b : Backend S) (sha : Bytes → H) (c : Conn) (r : Request H) (w : World S H) : World S H :=
  let x := b.handle w.srv c r.command r.data r.st.dir
  let files := filterFiles sha (x.2.2.map (onDisk b x.1)) r.st.hashes
  let m := splitMessage x.2.1
  let w := { w with srv := x.1, hashes := put w.hashes c files.2, log := w.log ++ [.serve c] }
  match encodeHeader [.int VERSION, .int m.1, .int files.1.length] LEN_HEADER with
  | .error _ => finish b c w
  | .ok h => send b c h (.sending m.2 (files.1.map File.path)) w

/-- The next file of the answer, or after the last one the next round of the loop. communication_utils.py 142-148,
communication_engine.py 78-81. -/
def nextOut (b : Backend S) (c : Conn) (w : World S H) : List String → World S H
  | [] => { w with pos := put w.pos c (some (.rx .header)) }
  | p :: ps =>
    match b.read w.srv p with
    | none => finish b c w
    | some content =>
      match encodeHeader [.int (ceilDiv content.length BLOCK_SIZE), .str (basename p)] LEN_FILES_HEADER with
      | .error _ => finish b c w
      | .ok h => send b c h (.reading p 0 ps) w

/-- The event loop resumes the coroutine of `c`: it runs to its next await. If it waits for a frame and there is none, nothing happens,
unless the connection was closed: then `recv` raises. communication_engine.py 66-140. -/
def resume (b : Backend S) (sha : Bytes → H) (c : Conn) (w : World S H) : World S H :=
  match w.pos c with
  | none => w
  | some .done => w
  | some (.rx r) =>
    match w.inbox c with
    | [] => if w.closed c then finish b c w else w
    | f :: fs =>
      let w := { w with inbox := put w.inbox c fs }
      match feed sha (w.hashes c) r f with
      | .wait hs r => { w with hashes := put w.hashes c hs, pos := put w.pos c (some (.rx r)) }
      | .fail _ => finish b c w
      | .ready r => answer b sha c r w
  | some (.sending (x :: xs) files) => send b c x (.sending xs files) w
  | some (.sending [] files) => nextOut b c w files
  | some (.reading p off files) =>
    match (((b.read w.srv p).getD []).drop off).take BLOCK_SIZE with
    | [] => nextOut b c w files
    | x :: xs => send b c (x :: xs) (.reading p (off + BLOCK_SIZE) files) w

/-- What can happen. communication_engine.py 58-110. -/
inductive Ev where
  | connect (c : Conn)
  | arrive (c : Conn) (f : Bytes)
  | close (c : Conn)
  | resume (c : Conn)

/-- One event. A new connection starts its coroutine with an empty table of hashes, communication_engine.py 73-76. -/
def step (b : Backend S) (sha : Bytes → H) (w : World S H) : Ev → World S H
  | .connect c =>
    match w.pos c with
    | none => { w with pos := put w.pos c (some (.rx .header)), hashes := put w.hashes c (fun _ => none) }
    | some _ => w
  | .arrive c f => { w with inbox := put w.inbox c (w.inbox c ++ [f]) }
  | .close c => { w with closed := put w.closed c true }
  | .resume c => Frames.resume b sha c w

/-- A schedule. communication_engine.py 58-64: the event loop runs forever. -/
def run (b : Backend S) (sha : Bytes → H) (w : World S H) (es : List Ev) : World S H := es.foldl (step b sha) w

end Osp.Frames
