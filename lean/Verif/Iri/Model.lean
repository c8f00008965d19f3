import Verif.Common
/-!
# Model of uid / IRI conversion and root substitution

`osp/core/utils/general.py` (`iri_from_uid`, `uid_from_iri`), Python's `uuid.UUID(hex=...)` and `str(uuid)`, and
`osp/core/session/db/triplestore_wrapper_session.py` (`_substitute_root_iri`, `_substitute_zero_iri`). Texts are lists of characters, a uid is the 128 bit number.
-/
namespace Osp.Iri

/-- Hexadecimal digit as `'%x'` prints it. Python itself; models nothing in /repo. -/
def hexDigit (n : Nat) : Char := Char.ofNat (if n < 10 then 48 + n else 87 + n)

/-- `'%0kx' % n`: the k lowest hexadecimal digits. Python itself; models nothing in /repo. -/
def toHex : Nat → Nat → List Char
  | 0, _ => []
  | k + 1, n => toHex k (n / 16) ++ [hexDigit (n % 16)]

/-- `str(uuid.UUID)`: 8-4-4-4-12 digits. -/
def uuidStr (u : Nat) : List Char :=
  let h := toHex 32 u
  h.take 8 ++ '-' :: (h.drop 8).take 4 ++ '-' :: (h.drop 12).take 4 ++ '-' :: (h.drop 16).take 4 ++ '-' :: h.drop 20

/-- `CUDS_IRI_PREFIX`, general.py:12. -/
def cudsPrefix : List Char := "http://www.osp-core.com/cuds/#".toList

/-- `iri_from_uid`, general.py:89-98. -/
def iriFromUid (u : Nat) : List Char := cudsPrefix ++ uuidStr u

/-- `text.replace(pat, '')` for a non-empty pattern; `fuel` is the length of the text. Python itself; models nothing in /repo. -/
def removeAll (pat : List Char) : Nat → List Char → List Char
  | 0, t => t
  | _ + 1, [] => []
  | n + 1, c :: t => if pat.isPrefixOf (c :: t) then removeAll pat n ((c :: t).drop pat.length) else c :: removeAll pat n t

/-- Python itself; models nothing in /repo. -/
def replaceEmpty (pat t : List Char) : List Char := removeAll pat t.length t

/-- `text.strip('{}')`. Python itself; models nothing in /repo. -/
def stripBraces (t : List Char) : List Char :=
  let p := fun c : Char => c = '{' ∨ c = '}'
  ((t.dropWhile (fun c => decide (p c))).reverse.dropWhile (fun c => decide (p c))).reverse

/-- Value of a hexadecimal digit for `int(text, 16)` (only the ASCII digits; Python also accepts other Unicode digits). -/
def hexVal (c : Char) : Option Nat :=
  if '0' ≤ c ∧ c ≤ '9' then some (c.toNat - 48)
  else if 'a' ≤ c ∧ c ≤ 'f' then some (c.toNat - 87)
  else if 'A' ≤ c ∧ c ≤ 'F' then some (c.toNat - 55)
  else none

/-- Digits with single underscores between them. `started`: a digit (or the base prefix) has been seen. As `int(text, 16)`. Python itself; models nothing in /repo. -/
def digits : List Char → Bool → Nat → Option Nat
  | [], started, acc => if started then some acc else none
  | '_' :: c :: t, true, acc => (hexVal c).bind (fun d => digits t true (16 * acc + d))
  | c :: t, _, acc => (hexVal c).bind (fun d => digits t true (16 * acc + d))

/-- Python itself; models nothing in /repo. -/
def isSpace (c : Char) : Bool := c = ' ' ∨ c = '\t' ∨ c = '\n' ∨ c = '\r' ∨ c = Char.ofNat 11 ∨ c = Char.ofNat 12

/-- Python itself; models nothing in /repo. -/
def stripSpace (t : List Char) : List Char := ((t.dropWhile isSpace).reverse.dropWhile isSpace).reverse

/-- An optional base prefix. As `int(text, 16)`. Python itself; models nothing in /repo. -/
def afterBase : List Char → Option Nat
  | '0' :: 'x' :: t => digits t true 0
  | '0' :: 'X' :: t => digits t true 0
  | t => digits t false 0

/-- `int(text, 16)` for results that are not negative; a negative number is refused by `uuid.UUID` anyway. A bare base prefix is treated as zero here, Python refuses
it; it cannot have 32 characters. -/
def pyIntHex (t : List Char) : Option Nat :=
  match stripSpace t with
  | '+' :: t => afterBase t
  | '-' :: _ => none
  | t => afterBase t

/-- `uuid.UUID(hex=text)`; `none` is the ValueError. The standard library, called at general.py 101-111. Models nothing in /repo itself: nothing in /repo. -/
def parseUuid (t : List Char) : Option Nat :=
  let t := replaceEmpty "uuid:".toList (replaceEmpty "urn:".toList t)
  let t := (stripBraces t).filter (· ≠ '-')
  if t.length ≠ 32 then none else pyIntHex t

/-- `uid_from_iri`, general.py:101-110: the prefix is not looked at. -/
def uidFromIri (iri : List Char) : Option Nat := parseUuid (iri.drop cudsPrefix.length)

/-! ### triples -/

/-- A term: an IRI, or a literal with its datatype. Both are Python strings. rdflib, as used by the cited callers; models nothing in /repo itself. Nothing in /repo. -/
inductive Term where
  | iri (t : List Char)
  | lit (t : List Char) (datatype : Nat)
  deriving DecidableEq

/-- rdflib, as used by the cited callers; models nothing in /repo itself. Nothing in /repo. -/
def Term.text : Term → List Char
  | .iri t => t
  | .lit t _ => t

/-- The replacement of one term, triplestore_wrapper_session.py:73-76 and :81-84: terms whose text starts with the prefix are parsed. -/
def substTerm (old new : Nat) (x : Term) : Except PyErr Term :=
  if cudsPrefix.isPrefixOf x.text then
    match uidFromIri x.text with
    | none => .error .valueError
    | some u => .ok (if u = old then .iri (iriFromUid new) else x)
  else .ok x

/-- The triples of triplestore_wrapper_session.py 70-84. -/
abbrev Triple := Term × Term × Term

/-- triplestore_wrapper_session.py 70-84, one triple. -/
def substTriple (old new : Nat) (t : Triple) : Except PyErr Triple := do
  return (← substTerm old new t.1, ← substTerm old new t.2.1, ← substTerm old new t.2.2)

/-- `_substitute_root_iri`, triplestore_wrapper_session.py:70-76. -/
def substRoot (root : Nat) (ts : List Triple) : Except PyErr (List Triple) := ts.mapM (substTriple root 0)

/-- `_substitute_zero_iri`, triplestore_wrapper_session.py:78-84. -/
def substZero (root : Nat) (ts : List Triple) : Except PyErr (List Triple) := ts.mapM (substTriple 0 root)

end Osp.Iri
