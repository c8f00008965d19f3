import Verif.Frames.Model
/-!
# A server that serves one complete request at a time
The specification of the interleaved server: no coroutines and no events, only the list-based functions of the wire protocol (claims C01 to C05).
-/
namespace Osp.Frames
open Osp.Wire

/-- A request as the backend saw it, and its answer. Specification. -/
structure Handled where
  conn : Conn
  command : String
  data : String
  dir : Dir
  response : String

/-- The sequential server: `rest` what each client has sent and was not served yet, `sent` what was sent to it. Specification. -/
structure Seq (S H : Type) where
  srv : S
  tab : Conn → Table H
  rest : Conn → List Bytes
  sent : Conn → List Bytes
  hist : List Handled

/-- The start, when `rest` is everything the clients are going to send. Specification. -/
def Seq.init {S H : Type} (s : S) (rest : Conn → List Bytes) : Seq S H := ⟨s, fun _ _ => none, rest, fun _ => [], []⟩

variable {S H : Type} [DecidableEq H]

/-- One action of the sequential server: serve the next request of `c` from its first to its last frame and send the whole answer, or
take note that `c` is gone. It cannot serve a request that is not completely there or is malformed. Specification. -/
def seqStep (b : Backend S) (sha : Bytes → H) (q : Seq S H) : Act → Option (Seq S H)
  | .serve c =>
    match serverDecode sha ⟨fun _ => none, q.tab c⟩ (q.rest c) with
    | .error _ => none
    | .ok (r, ws) =>
      let x := b.handle q.srv c r.command r.data r.st.dir
      let y := serverRespond sha r.st.hashes x.2.1 (x.2.2.map fun p => (b.read x.1 p).map (File.mk p))
      some ⟨x.1, put q.tab c y.2, put q.rest c ws, put q.sent c (q.sent c ++ y.1.frames),
        q.hist ++ [⟨c, r.command, r.data, r.st.dir, x.2.1⟩]⟩
  | .leave c => some { q with srv := b.leave q.srv c }

/-- The sequential server performs the actions one after the other. Specification. -/
def seqRun (b : Backend S) (sha : Bytes → H) (q : Seq S H) (as : List Act) : Option (Seq S H) := as.foldlM (seqStep b sha) q

/-- The frames that arrive from `c` in a schedule. Specification. -/
def arrivals (c : Conn) (es : List Ev) : List Bytes :=
  es.filterMap fun e => match e with
    | .arrive d f => if d = c then some f else none
    | _ => none

/-- The connection an event belongs to. Specification. -/
def Ev.conn : Ev → Conn
  | .connect c | .arrive c _ | .close c | .resume c => c

/-- The files of an answer that still have to be read to finish sending it. Specification. -/
def Pos.unread : Pos → List String
  | .sending _ files => files
  | .reading p _ files => p :: files
  | _ => []

/-- No event changes a file that some other connection is about to read, or is reading, for its answer. Specification. -/
def Undisturbed (b : Backend S) (sha : Bytes → H) : World S H → List Ev → Prop
  | _, [] => True
  | w, e :: es =>
    (∀ d p, d ≠ e.conn → w.pos d = some p → ∀ f ∈ p.unread, b.read (step b sha w e).srv f = b.read w.srv f) ∧
      Undisturbed b sha (step b sha w e) es

/-- The connection waits for a request and nothing of it has arrived. Specification. -/
def Idle (w : World S H) (c : Conn) : Prop := w.pos c = some (.rx .header) ∧ w.inbox c = []

end Osp.Frames
