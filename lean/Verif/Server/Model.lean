import Verif.Text
/-!
# Model of the transport session server

`osp/core/session/transport/transport_session_server.py` and the life cycle of a connection in `communication_engine.py`. The session class the server runs
is a parameter: every method is an arbitrary function that changes the state of its own session object and returns or raises. State shared by several session
objects outside the server (a database both open) is not modelled.
-/
namespace Osp.Server

/-- Connection ids, transport_session_server.py 69-202. Modelling simplification: numbers. -/
abbrev Conn := Nat
/-- Identities of session objects. Modelling device. -/
abbrev SId := Nat

/-- Python code that may raise after having changed the state. Modelling device. -/
abbrev Op (S α : Type) := S → S × Except PyErr α

/-- The JSON object of an `_init` request; `none`: the key is missing. transport_session_server.py 162-200. -/
structure InitData (D : Type) where
  auth : Option D
  args : Option (List D)
  kwargs : Option (List (Text × D))
  hashes : Option D
  root : Option D

/-- Values of keyword arguments: from the request, from the server configuration, or the connection id. transport_session_server.py 162-200. -/
inductive KwVal (D : Type) where
  | data (d : D)
  | conn (c : Conn)

/-- The session class. `S`: states of a session object, `D`: request data, `A`: results of methods, `R`: response texts, `H`: file hashes. A parameter: transport_session_server.py 32-63, `session_cls`. Arbitrary. Modelling device. -/
structure Cls (S D A R H : Type) where
  /-- `session_cls.handshake`, encoded. -/
  handshake : D → Conn → Except PyErr R
  /-- `json.loads`. -/
  parse : D → Except PyErr (InitData D)
  /-- Parameters of the constructor. -/
  wantsConn : Bool
  wantsAuth : Bool
  /-- `session_cls(*args, **kwargs)`. -/
  construct : List D → List (Text × KwVal D) → Except PyErr S
  /-- `file_hashes.update(hashes)`. -/
  addHashes : D → H → Except PyErr H
  /-- `deserialize(data["root"], session, USER)`. -/
  readRoot : D → Op S Unit
  /-- `session.close()`. -/
  close : Op S Unit
  /-- `hasattr(session, name)`, and whether the attribute is callable. -/
  attr : S → Text → Option Bool
  /-- `hasattr(WrapperSession, name)`. -/
  wrapperAttr : Text → Bool
  /-- `deserialize_buffers(session, USER, data)` and taking `args` and `kwargs` from the result. -/
  readArgs : D → Op S (List D × List (Text × D))
  /-- `getattr(session, name)(*args, **kwargs)`. -/
  call : Text → List D → List (Text × D) → Op S A
  /-- `deserialize_buffers(session, None, data)["uids"]` and `session.load`. -/
  load : D → Op S A
  /-- `serialize_buffers(session, ENGINE, additional_items)`. -/
  answer : Option A → Op S R
  /-- `if result`. -/
  truthy : A → Bool

/-- State of the server. A session object comes with the number of calls of `close()`; the log records calls of session methods by `_run_command`. transport_session_server.py 32-63; the counters and the log are modelling devices. -/
structure Srv (S H : Type) where
  objs : Conn → Option SId
  heap : SId → Option (S × Nat)
  next : SId
  hashes : Conn → Option H
  calls : List (Conn × SId × Text)

/-- Python itself; models nothing in /repo. -/
def upd {α β : Type} [DecidableEq α] (f : α → β) (a : α) (b : β) : α → β := fun x => if x = a then b else f x

/-- `TransportSessionServer.__init__`, transport_session_server.py:32-63. -/
def Srv.empty {S H : Type} : Srv S H := ⟨fun _ => none, fun _ => none, 0, fun _ => none, []⟩

variable {S D A R H : Type}

/-- Run code of a session object. Modelling device. -/
def runOn {α : Type} (s : Srv S H) (i : SId) (f : Op S α) : Srv S H × Except PyErr α :=
  match s.heap i with
  | none => (s, .error .exception)
  | some (x, n) => (({ s with heap := upd s.heap i (some ((f x).1, n)) } : Srv S H), (f x).2)

/-- `session.close()`: counted. transport_session_server.py 69-80, 162-200. -/
def closeSession (k : Cls S D A R H) (s : Srv S H) (i : SId) : Srv S H × Except PyErr Unit :=
  match s.heap i with
  | none => (s, .error .exception)
  | some (x, n) => (({ s with heap := upd s.heap i (some ((k.close x).1, n + 1)) } : Srv S H), (k.close x).2)

/-- Keyword arguments passed twice raise TypeError. Python itself; models nothing in /repo. -/
def merge (a b : List (Text × KwVal D)) : Except PyErr (List (Text × KwVal D)) :=
  if a.any (fun x => b.any (fun y => x.1 == y.1)) then .error .typeError else .ok (a ++ b)

/-- transport_session_server.py 162-200. -/
def userKwargs (k : Cls S D A R H) (x : InitData D) (c : Conn) : Except PyErr (List (Text × KwVal D)) :=
  let l := if k.wantsConn then [("connection_id".toList, KwVal.conn c)] else []
  if k.wantsAuth then match x.auth with
    | none => .error .keyError
    | some a => .ok (l ++ [("auth".toList, .data a)])
  else .ok l

/-- Choice of the arguments and construction, transport_session_server.py:178-196. `cfg` is `_session_kwargs`. -/
def newSession (k : Cls S D A R H) (cfg : Option (List (Text × D))) (x : InitData D) (c : Conn) : Except PyErr S :=
  match userKwargs k x c with
  | .error e => .error e
  | .ok user =>
    let build (args : List D) (kw : List (Text × D)) : Except PyErr S := match merge (kw.map (fun p => (p.1, KwVal.data p.2))) user with
      | .error e => .error e
      | .ok kw => k.construct args kw
    match cfg with
    | some (p :: ps) => match x.args with
      | none => .error .keyError
      | some (_ :: _) => .error .valueError
      | some [] => match x.kwargs with
        | none => .error .keyError
        | some (_ :: _) => .error .valueError
        | some [] => build [] (p :: ps)
    | _ => match x.args, x.kwargs with
      | some args, some kw => build args kw
      | _, _ => .error .keyError

/-- Closing the session the connection already has, transport_session_server.py:176-177. -/
def closeOld (k : Cls S D A R H) (s : Srv S H) (c : Conn) : Srv S H × Except PyErr Unit :=
  match s.objs c with
  | none => (s, .ok ())
  | some i => closeSession k s i

/-- `session_cls(...)`: a new session object. transport_session_server.py 162-200. -/
def alloc (s : Srv S H) (z : S) : Srv S H := { s with heap := upd s.heap s.next (some (z, 0)), next := s.next + 1 }

/-- `_file_hashes[connection_id].update(...)`, `session_objs[connection_id] = session`. transport_session_server.py 162-200. -/
def register (s : Srv S H) (c : Conn) (i : SId) (h : H) : Srv S H := { s with hashes := upd s.hashes c (some h), objs := upd s.objs c (some i) }

/-- `del session_objs[connection_id]`. transport_session_server.py 69-80. -/
def unregister (s : Srv S H) (c : Conn) : Srv S H := { s with objs := upd s.objs c none }

/-- The end of `_init_session`, transport_session_server.py:199-204. -/
def finishInit (k : Cls S D A R H) (s : Srv S H) (i : SId) (root : Option D) : Srv S H × Except PyErr R :=
  match root with
  | none => (s, .error .keyError)
  | some r => match runOn s i (k.readRoot r) with
    | (s, .error e) => (s, .error e)
    | (s, .ok ()) => runOn s i (k.answer none)

/-- `_file_hashes[connection_id].update(data["hashes"])`, transport_session_server.py:197. -/
def newHashes (k : Cls S D A R H) (h : Option H) (hd : Option D) : Except PyErr H :=
  match h, hd with
  | some h, some hd => k.addHashes hd h
  | _, _ => .error .keyError

/-- `_init_session`, transport_session_server.py:162-204. -/
def initSession (k : Cls S D A R H) (cfg : Option (List (Text × D))) (s : Srv S H) (c : Conn) (d : D) : Srv S H × Except PyErr R :=
  match k.parse d with
  | .error e => (s, .error e)
  | .ok x =>
    match closeOld k s c with
    | (s, .error e) => (s, .error e)
    | (s, .ok ()) =>
      match newSession k cfg x c with
      | .error e => (s, .error e)
      | .ok z =>
        match newHashes k (s.hashes c) x.hashes with
        | .error e => (alloc s z, .error e)
        | .ok h => finishInit k (register (alloc s z) c s.next h) s.next x.root

/-- `_load_from_session`, transport_session_server.py:140-160. -/
def loadFromSession (k : Cls S D A R H) (s : Srv S H) (c : Conn) (d : D) : Srv S H × Except PyErr R :=
  match s.objs c with
  | none => (s, .error .keyError)
  | some i => match runOn s i (k.load d) with
    | (s, .error e) => (s, .error e)
    | (s, .ok a) => runOn s i (k.answer (some a))

/-- `_run_command`, transport_session_server.py:116-138. -/
def runCommand (k : Cls S D A R H) (s : Srv S H) (c : Conn) (i : SId) (cmd : Text) (d : D) : Srv S H × Except PyErr R :=
  match runOn s i (k.readArgs d) with
  | (s, .error e) => (s, .error e)
  | (s, .ok (args, kwargs)) =>
    let s : Srv S H := { s with calls := s.calls ++ [(c, i, cmd)] }
    match runOn s i (k.call cmd args kwargs) with
    | (s, .error e) => (s, .error e)
    | (s, .ok a) => runOn s i (k.answer (if k.truthy a then some a else none))

/-- communication_engine.py 66-110 and transport_session_server.py 82-114: responses and errors. -/
inductive Resp (R : Type) where
  | ok (r : R)
  | error (e : PyErr)
  | invalid

/-- transport_session_server.py 82-114. -/
def Resp.of : Except PyErr R → Resp R
  | .ok r => .ok r
  | .error e => .error e

/-- The test for commands, transport_session_server.py:101-107: the session to run the command on. -/
def allowed (k : Cls S D A R H) (s : Srv S H) (c : Conn) (cmd : Text) : Option SId :=
  match cmd with
  | '_' :: _ => none
  | _ => match s.objs c with
    | none => none
    | some i => match s.heap i with
      | none => none
      | some (x, _) => match k.attr x cmd with
        | none => none
        | some callable => if k.wrapperAttr cmd then none else if callable then some i else none

/-- `handle_request`, transport_session_server.py:82-114. -/
def handleRequest (k : Cls S D A R H) (cfg : Option (List (Text × D))) (s : Srv S H) (c : Conn) (cmd : Text) (d : D) : Srv S H × Resp R :=
  if cmd = "_handshake".toList then (s, Resp.of (k.handshake d c))
  else if cmd = "_init".toList then ((initSession k cfg s c d).1, Resp.of (initSession k cfg s c d).2)
  else if cmd = "_load".toList then ((loadFromSession k s c d).1, Resp.of (loadFromSession k s c d).2)
  else match allowed k s c cmd with
    | some i => ((runCommand k s c i cmd d).1, Resp.of (runCommand k s c i cmd d).2)
    | none => (s, .invalid)

/-- `handle_disconnect`, transport_session_server.py:69-80, after removing the hashes, communication_engine.py:105-109. -/
def handleDisconnect (k : Cls S D A R H) (s : Srv S H) (c : Conn) : Srv S H :=
  let s : Srv S H := { s with hashes := upd s.hashes c none }
  match s.objs c with
  | none => s
  | some i => match closeSession k s i with
    | (s, .error _) => s
    | (s, .ok ()) => unregister s c

/-- What happens at the server: connections open, send requests and close. The connection id is a fresh UUID. communication_engine.py 66-110. Modelling device: histories of calls, nothing in /repo. -/
inductive Event (D H : Type) where
  | connect (c : Conn) (h : H)
  | request (c : Conn) (cmd : Text) (d : D)
  | disconnect (c : Conn)

/-- Modelling device: histories of calls, nothing in /repo. -/
def Event.conn : Event D H → Conn
  | .connect c _ => c
  | .request c _ _ => c
  | .disconnect c => c

/-- `_serve`, communication_engine.py:67-109, for one event: the new state and the response. -/
def step (k : Cls S D A R H) (cfg : Option (List (Text × D))) (s : Srv S H) : Event D H → Srv S H × Option (Resp R)
  | .connect c h => ({ s with hashes := upd s.hashes c (some h) }, none)
  | .request c cmd d => ((handleRequest k cfg s c cmd d).1, some (handleRequest k cfg s c cmd d).2)
  | .disconnect c => (handleDisconnect k s c, none)

/-- A history: the final state and the responses with the connection they go to. Modelling device: histories of calls, nothing in /repo. -/
def run (k : Cls S D A R H) (cfg : Option (List (Text × D))) : List (Event D H) → Srv S H → Srv S H × List (Conn × Resp R)
  | [], s => (s, [])
  | e :: es, s =>
    let (s', r) := step k cfg s e
    let (s'', rs) := run k cfg es s'
    (s'', (r.map (fun r => (e.conn, r))).toList ++ rs)

end Osp.Server
