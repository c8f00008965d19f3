import Verif.Sess.Engine
/-!
# Model of the synchronisation of a transport client with its server (C58)

`serialize_buffers` and `deserialize_buffers` in `osp/core/session/transport/transport_utils.py` (cited as tu:), `_send` and `_receive` in
`transport_session_client.py` (client:), `_run_command` in `transport_session_server.py` (server:).

Client and server session are states of `Verif.Sess.Model`. Simplifications. A message is the data structure before it is written as JSON: JSON, JSON-LD and the conversion of
literals are taken to be lossless (C06, C50), frames and blocks are the subject of C01-C05, files of C57. The arguments of a command contain no CUDS objects, its result is
a list of objects or `None`s.
The type triples of neighbours that are sent along are not modelled (`Verif.Sess.Model`), and the wrapper checks of `create_from_triples` pass (`Verif.Sess.Root`).
-/
namespace Osp.Sync
open Osp.Sess

/-- The JSON-LD document of an object, `_serializable`, tu:284-300: its uid and triples; an object without triples is written as an empty list, from which
nothing can be read. -/
abbrev Doc := Option (Uid × Content)

/-- `_serializable`, tu:284-300. -/
def doc (s : St) (u : Uid) : Doc := if s.content u = ∅ then none else some (u, s.content u)

/-- The three buffers of a message. transport_utils.py 29-121. -/
structure Bufs where
  added : List Doc
  updated : List Doc
  deleted : List Doc

/-- The JSON object of a request or response: buffers, if sent, the expired uids and the result of the command. transport_utils.py 29-121. -/
structure Msg where
  bufs : Option Bufs
  expired : List Uid
  result : List Doc

/-- `serialize_buffers`, tu:29-68; `none`: no buffers are sent. The buffers that were serialised are reset. -/
def serialize (s : St) : Option Ctx → Msg × St
  | none => (⟨none, s.expired, []⟩, s)
  | some .user => (⟨some ⟨s.user.added.map (doc s), s.user.updated.map (doc s), s.user.deleted.map (doc s)⟩, s.expired, []⟩, { s with user := .empty })
  | some .engine => (⟨some ⟨s.engine.added.map (doc s), s.engine.updated.map (doc s), s.engine.deleted.map (doc s)⟩, s.expired, []⟩, { s with engine := .empty })

/-- `_to_cuds_object` with `create_from_triples` (without fixing neighbours), tu:303-342, wrapper_development.py:188-232. Triples left in the graph for a uid that is not
registered stay. -/
def receive (u : Uid) (c : Content) (s : St) : Res Unit :=
  let s := { s with expired := del s.expired u }
  let s := if u ∈ s.reg then { s with g := Function.update s.g u ∅ } else s.store u ∅
  St.notifyUpdate { s with g := Function.update s.g u (s.g u ∪ c) } u

/-- `deserialize` of a list of objects, tu:207-213; an empty document gives an empty list. -/
def receiveAll : List Doc → St → Res (List (Option Uid))
  | [], s => (.ok [], s)
  | none :: ds, s => match receiveAll ds s with
    | (.ok l, s) => (.ok (none :: l), s)
    | (.error e, s) => (.error e, s)
  | some (u, c) :: ds, s => match receive u c s with
    | (.error e, s) => (.error e, s)
    | (.ok _, s) => match receiveAll ds s with
      | (.ok l, s) => (.ok (some u :: l), s)
      | (.error e, s) => (.error e, s)

/-- The calls of `_notify_delete`, tu:114-115; the empty list has no attribute `uid`. -/
def notifyAll : List (Option Uid) → St → Res Unit
  | [], s => (.ok (), s)
  | none :: _, s => (.error .attributeError, s)
  | some u :: us, s => notifyAll us (s.notifyDelete u)

/-- The deletion from the registry, tu:117-119. The triples stay in the graph, and the handles in the buffer of deleted objects refer to them. -/
def unregister (us : List (Option Uid)) (s : St) : St :=
  { s with reg := s.reg.filter (fun u => some u ∉ us), det := fun u => if some u ∈ us then s.g u else s.det u }

/-- The body of `deserialize_buffers`, tu:93-119; the result is the last entry of the message. -/
def applyMsg (m : Msg) (s : St) : Res (List (Option Uid)) :=
  let s := (s.expire m.expired).2
  match m.bufs with
  | none => receiveAll m.result s
  | some b => match receiveAll b.added s with
    | (.error e, s) => (.error e, s)
    | (.ok _, s) => match receiveAll b.updated s with
      | (.error e, s) => (.error e, s)
      | (.ok _, s) => match receiveAll b.deleted s with
        | (.error e, s) => (.error e, s)
        | (.ok ds, s) => match receiveAll m.result s with
          | (.error e, s) => (.error e, s)
          | (.ok rs, s) => match notifyAll ds s with
            | (.error e, s) => (.error e, s)
            | (.ok _, s) => (.ok rs, unregister ds s)

/-- `deserialize_buffers`, tu:71-121, with the context manager of buffers.py:115-128. -/
def deserialize (c : Ctx) (m : Msg) (s : St) : Res (List (Option Uid)) := match c with
  | .user => applyMsg m s
  | .engine => s.inEngine (applyMsg m)

/-- What the network does to a request. Modelling device: the network. -/
inductive Net where
  /-- delivers request and response -/
  | fine
  /-- the request does not arrive, sending raises -/
  | noRequest
  /-- the response does not arrive, receiving raises -/
  | noResponse
  deriving DecidableEq

/-- The result of a request: what the client's call returns or raises, the client and the server. Modelling device. -/
structure Outcome where
  res : Except PyErr (List (Option Uid))
  client : St
  server : St

/-- The message of the server, tu:29-68: its engine buffers, what is expired and the result of the command. -/
def respond (rs : List (Option Uid)) (t : St) : Msg × St :=
  ({ (serialize t (some .engine)).1 with result := rs.map (fun o => o.bind (doc t)) }, (serialize t (some .engine)).2)

/-- The server's part: `_run_command` and `_load_from_session`, server:116-160, with the answer to exceptions, server:110-112. `none`: an error message. -/
def serve (cmd : St → Res (List (Option Uid))) (m : Msg) (t : St) : Option Msg × St :=
  match deserialize .user m t with
  | (.error _, t) => (none, t)
  | (.ok _, t) => match cmd t with
    | (.error _, t) => (none, t)
    | (.ok rs, t) => (some (respond rs t).1, (respond rs t).2)

/-- Sending a message and processing the response: `_receive`, client:134-158. -/
def request (net : Net) (m : Msg) (cmd : St → Res (List (Option Uid))) (c t : St) : Outcome :=
  if net = .noRequest then ⟨.error .connectionClosed, c, t⟩
  else
    let (r, t) := serve cmd m t
    if net = .noResponse then ⟨.error .connectionClosed, c, t⟩
    else match r with
      | none => ⟨.error .runtimeError, c, t⟩
      | some m => let (r, c) := deserialize .engine m c; ⟨r, c, t⟩

/-- A method call on the client: `_send`, client:113-132. `cmd` is the method of the server's session, `consume` whether it consumes the buffers. -/
def call (net : Net) (consume : Bool) (cmd : St → Res (List (Option Uid))) (c t : St) : Outcome :=
  let (m, c) := serialize c (if consume then some .user else none)
  request net m cmd c t

/-- `load` on the client for one object, wrapper_session.py:70-111, with `_load_from_backend`, client:103-111; `fetch` is the session's `load` on the server. The whole body runs in
the engine context (buffers.py:83-112). -/
def load1 (P : Params) (net : Net) (fetch : List Uid → St → Res (List (Option Uid))) (u : Uid) (c t : St) : Outcome :=
  if c.root = none then ⟨.error .runtimeError, c, t⟩
  else
    let c0 := { c with engine := .empty, ctx := .engine, expired := del c.expired u }
    if u ∈ c.reg ∧ u ∉ c.expired then ⟨.ok [some u], { c0 with ctx := c.ctx }, t⟩
    else
      let old := if u ∈ c.reg then some (c.g u) else none
      let exp := if u ∈ c.expired then [u] else c0.expired
      let o := request net ⟨none, exp, []⟩ (fetch [u]) c0 t
      match o.res with
      | .error e => ⟨.error e, { o.client with ctx := c.ctx }, o.server⟩
      | .ok rs =>
        let new := rs.headD none
        let s := o.client
        let s := match old with
          | none => s
          | some k => (s.expire ((P.diff k (if new.isSome then s.g u else ∅)).filter (· ≠ u))).2
        if old.isSome ∧ new = none ∧ u ∈ s.reg then
          match s.deleteTriples P u with
          | (.ok _, s) => ⟨.ok [new], { s with ctx := c.ctx }, o.server⟩
          | (.error e, s) => ⟨.error e, { s with ctx := c.ctx }, o.server⟩
        else ⟨.ok [new], { s with ctx := c.ctx }, o.server⟩

/-- Reading an object on the client: `_notify_read` and `refresh`, wrapper_session.py:145-158, :294-301. -/
def read (P : Params) (net : Net) (fetch : List Uid → St → Res (List (Option Uid))) (u : Uid) (c t : St) : Outcome :=
  if u ∈ c.expired then
    let (es, c) := c.expire [u]
    match es with
    | [] => ⟨.ok [], c, t⟩
    | _ :: _ => load1 P net fetch u c t
  else ⟨.ok [some u], c, t⟩

end Osp.Sync
