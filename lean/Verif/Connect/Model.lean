import Verif.Server.Props
/-!
# Model of the client side of a connection

`osp/core/session/transport/transport_session_client.py` (cited as cli:), `osp/core/session/wrapper_session.py` (wrap:).

The first part is the parsing of the URI, with the part of Python's `urllib.parse` it uses. The second part is the life cycle of a client session over the
server of `Verif/Server`: the constructor, storing objects, calling methods, loading.
-/
namespace Osp.Connect
open Osp.Server

/-! ## URIs -/

/-- `text.partition(c)`: the text before the first `c`, and the text after it if there is one. Python itself; models nothing in /repo. -/
def partition (c : Char) : Text → Text × Option Text
  | [] => ([], none)
  | x :: t => if x = c then ([], some t) else ((x :: (partition c t).1), (partition c t).2)

/-- `text.rpartition(c)`: the text before the last `c` if there is one, and the text after it. Python itself; models nothing in /repo. -/
def rpartition (c : Char) : Text → Option Text × Text
  | [] => (none, [])
  | x :: t => match rpartition c t with
    | (some b, a) => (some (x :: b), a)
    | (none, a) => if x = c then (some [], a) else (none, x :: a)

/-- Everything up to the first character that satisfies the test, and the rest. Python itself; models nothing in /repo. -/
def cut (p : Char → Bool) : Text → Text × Text
  | [] => ([], [])
  | x :: t => if p x then ([], x :: t) else (x :: (cut p t).1, (cut p t).2)

/-- `scheme_chars` of `urllib.parse`. Python itself; models nothing in /repo. -/
def schemeChar (c : Char) : Bool := c.isAlphanum || c == '+' || c == '-' || c == '.'

/-- The result of `urlparse`. Python itself; models nothing in /repo. -/
structure Parsed where
  scheme : Text
  netloc : Text
  path : Text
  query : Text
  fragment : Text
  deriving DecidableEq, Repr

/-- The scheme and the rest, as in `urlsplit`. Python itself; models nothing in /repo. -/
def splitScheme (t : Text) : Text × Text :=
  match partition ':' t with
  | (c :: s, some r) => if c.isAlpha ∧ (c :: s).all schemeChar then ((c :: s).map Char.toLower, r) else ([], t)
  | _ => ([], t)

/-- The network location and the rest, as in `urlsplit`. Python itself; models nothing in /repo. -/
def splitNetloc : Text → Text × Text
  | '/' :: '/' :: t => cut (fun c => c == '/' || c == '?' || c == '#') t
  | t => ([], t)

/-- Unbalanced brackets: the ValueError of `urlsplit`. Python itself; models nothing in /repo. -/
def brackets (n : Text) : Bool := n.contains '[' != n.contains ']'

/-- `urllib.parse.urlparse` for texts without white space and control characters; the parameters after a semicolon, which schemes of websockets do not have, are left in the path. Python itself; models nothing in /repo. -/
def urlparse (t : Text) : Except PyErr Parsed :=
  let (scheme, r) := splitScheme t
  let (netloc, r) := splitNetloc r
  if brackets netloc then .error .valueError else
  let (r, fragment) := partition '#' r
  let (path, query) := partition '?' r
  .ok ⟨scheme, netloc, path, query.getD [], fragment.getD []⟩

/-- The members of `uses_netloc` of `urllib.parse` that websockets accepts. Python itself; models nothing in /repo. -/
def usesNetloc (s : Text) : Bool := s = "ws".toList ∨ s = "wss".toList

/-- `urllib.parse.urlunparse`. Python itself; models nothing in /repo. -/
def urlunparse (p : Parsed) : Text :=
  let url := p.path
  let url := if p.netloc ≠ [] ∨ (usesNetloc p.scheme ∧ ¬ ['/', '/'].isPrefixOf url) then
      "//".toList ++ p.netloc ++ (if url ≠ [] ∧ url.head? ≠ some '/' then '/' :: url else url) else url
  let url := if p.scheme ≠ [] then p.scheme ++ ':' :: url else url
  let url := if p.query ≠ [] then url ++ '?' :: p.query else url
  if p.fragment ≠ [] then url ++ '#' :: p.fragment else url

/-- `parsed.username` and `parsed.password`. Python itself; models nothing in /repo. -/
def userinfo (netloc : Text) : Option Text × Option Text :=
  match rpartition '@' netloc with
  | (none, _) => (none, none)
  | (some i, _) => (some (partition ':' i).1, (partition ':' i).2)

/-- The truth value of `None` or a text. Python itself; models nothing in /repo. -/
def truthyText : Option Text → Bool
  | none => false
  | some t => !t.isEmpty

/-- `_parse_uri` of a text, cli:160-175: the URI to connect to, the user name and the password. -/
def parseUri (t : Text) : Except PyErr (Text × Option Text × Option Text) :=
  match urlparse t with
  | .error e => .error e
  | .ok p =>
    let (u, w) := userinfo p.netloc
    if truthyText u ∨ truthyText w then match splitOn '@' p.netloc with
      | _ :: h :: _ => .ok (urlunparse { p with netloc := h }, u, w)
      | _ => .error .indexError
    else .ok (urlunparse p, u, w)

/-! ## The client session -/

/-- Identities of objects. Modelling simplification: numbers. -/
abbrev Obj := Nat

/-- What the client consults. Parameters of the model: cli:36-72, cli:75-93, cli:178-201, arbitrary up to the assumptions of the theorems. -/
structure Env (D R : Type) where
  /-- `args` and `kwargs` of the constructor, cli:50-52. -/
  args : List D
  kwargs : List (Text × D)
  /-- `username or ""`, as data of the handshake, cli:69. -/
  user : Text → D
  /-- `session_cls.compute_auth`, wrap:428-447, on the result of the handshake. -/
  computeAuth : Option Text → Option Text → Option D → Except PyErr (Option D)
  /-- JSON `null`. -/
  null : D
  /-- `serializable(cuds_object)`, cli:82. -/
  root : Obj → D
  /-- `get_hash_dir(self._file_destination)`, cli:83. -/
  hashes : D
  /-- `json.dumps` of the `_init` data, cli:78-88. -/
  dump : InitData D → D
  /-- `serialize_buffers` with the arguments and, if the command consumes the buffers, the added objects, cli:125-132. -/
  request : List Obj → D → D
  /-- `_receive` of an answer that is no error, cli:147-158. -/
  receive : R → Except PyErr (Option D)
  /-- Attributes of the client itself, which Python finds without `__getattr__`, cli:178. -/
  isLocal : Text → Bool
  /-- `hasattr(session_cls, attr)` and whether it is callable, cli:193-194. -/
  clsAttr : Text → Option Bool
  /-- `check_consumes_buffers`, wrap:32-42. -/
  consumes : Text → Bool

/-- A client session: the root, the added buffer of the user context, the authentication, and the requests sent so far (a modelling device). cli:50-72. -/
structure Client (D : Type) where
  root : Option Obj
  added : List Obj
  auth : Option D
  log : List (Text × D)

variable {S D A R H : Type}

/-- The client and the server it is connected to. Modelling device. -/
structure World (S D H : Type) where
  cli : Client D
  srv : Srv S H

/-- What `_receive` does with an answer, cli:134-158. -/
def receive (e : Env D R) : Resp R → Except PyErr (Option D)
  | .ok r => e.receive r
  | _ => .error .runtimeError

/-- `self._engine.send(command, data)`, answered by the server, cli:134-158, communication_engine.py 167-179 and 191-229. -/
def send (k : Cls S D A R H) (cfg : Option (List (Text × D))) (e : Env D R) (c : Conn) (w : World S D H) (cmd : Text) (d : D) :
    World S D H × Except PyErr (Option D) :=
  let p := handleRequest k cfg w.srv c cmd d
  (⟨{ w.cli with log := w.cli.log ++ [(cmd, d)] }, p.1⟩, receive e p.2)

/-- The end of `__init__`, cli:67-72, for a URI that was given: the handshake. The parsed user name and password are arguments. -/
def connect (k : Cls S D A R H) (cfg : Option (List (Text × D))) (e : Env D R) (c : Conn) (s : Srv S H) (user password : Option Text) :
    World S D H × Except PyErr Unit :=
  match send k cfg e c ⟨⟨none, [], none, []⟩, s⟩ "_handshake".toList (e.user (user.getD [])) with
  | (w, .error x) => (w, .error x)
  | (w, .ok r) => match e.computeAuth user password r with
    | .error x => (w, .error x)
    | .ok a => (⟨{ w.cli with auth := a }, w.srv⟩, .ok ())

/-- `_store`, cli:75-93. The checks of `WrapperSession._store` are in `Verif/Sess/Root.lean`. -/
def store (k : Cls S D A R H) (cfg : Option (List (Text × D))) (e : Env D R) (c : Conn) (w : World S D H) (o : Obj) : World S D H × Except PyErr (Option D) :=
  match w.cli.root with
  | some _ => (⟨{ w.cli with added := w.cli.added ++ [o] }, w.srv⟩, .ok none)
  | none =>
    let d := e.dump ⟨some (w.cli.auth.getD e.null), some e.args, some e.kwargs, some e.hashes, some (e.root o)⟩
    let w : World S D H := ⟨{ w.cli with root := some o, added := w.cli.added ++ [o] }, w.srv⟩
    match send k cfg e c w "_init".toList d with
    | (w, .error x) => (w, .error x)
    | (w, .ok _) => (⟨{ w.cli with added := w.cli.added.filter (· != o) }, w.srv⟩, .ok none)

/-- The test of `__getattr__`, cli:193-195. -/
def forwarded (e : Env D R) (name : Text) : Bool := name.head? != some '_' && e.clsAttr name == some true

/-- Calling a method of the client session: found on the client (its effect is not modelled), forwarded, or AttributeError, cli:178-201 and 113-132. -/
def call (k : Cls S D A R H) (cfg : Option (List (Text × D))) (e : Env D R) (c : Conn) (w : World S D H) (name : Text) (d : D) :
    World S D H × Except PyErr (Option D) :=
  if e.isLocal name then (w, .ok none)
  else if forwarded e name then
    let b := if e.consumes name then w.cli.added else []
    let w : World S D H := ⟨{ w.cli with added := if e.consumes name then [] else w.cli.added }, w.srv⟩
    send k cfg e c w name (e.request b d)
  else (w, .error .attributeError)

/-- `_load_from_backend`, cli:103-111. -/
def load (k : Cls S D A R H) (cfg : Option (List (Text × D))) (e : Env D R) (c : Conn) (w : World S D H) (d : D) : World S D H × Except PyErr (Option D) :=
  send k cfg e c w "_load".toList (e.request [] d)

/-- What a user does with the session. Modelling device: histories of calls, nothing in /repo. -/
inductive Op (D : Type) where
  | store (o : Obj)
  | call (name : Text) (d : D)
  | load (d : D)

/-- Modelling device: histories of calls, nothing in /repo. -/
def step (k : Cls S D A R H) (cfg : Option (List (Text × D))) (e : Env D R) (c : Conn) (w : World S D H) : Op D → World S D H × Except PyErr (Option D)
  | .store o => store k cfg e c w o
  | .call n d => call k cfg e c w n d
  | .load d => load k cfg e c w d

/-- A history: the final state and the results. Modelling device: histories of calls, nothing in /repo. -/
def run (k : Cls S D A R H) (cfg : Option (List (Text × D))) (e : Env D R) (c : Conn) : List (Op D) → World S D H → World S D H × List (Except PyErr (Option D))
  | [], w => (w, [])
  | o :: os, w =>
    let p := step k cfg e c w o
    let q := run k cfg e c os p.1
    (q.1, p.2 :: q.2)

end Osp.Connect
