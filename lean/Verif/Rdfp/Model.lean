import Verif.Install.Sorted
import Verif.Ymlp.Model
/-!
# Model of RDF packages, bound namespaces and the saved table of namespaces (C71, C72)

`osp/core/ontology/parser.py` 205-354 (cited as par:), `namespace_registry.py` 106-117, 231-283 (reg:), with rdflib 5's `NamespaceManager.bind` as the callers see it.

Names and IRIs are texts; the graph is a list of triples in arbitrary order. The package file is a dictionary as `yaml.safe_load` returns it.
-/
namespace Osp.Rdfp
open Osp.Yaml (Yaml Entries get)
open Osp.Names (lower)
open Osp.Install (put look)

/-! ### namespaces of a graph (rdflib) -/

/-- The bound namespaces: the dictionaries from prefix to IRI and from IRI to prefix, in insertion order. rdflib's store; nothing in /repo. -/
structure Binds where
  ns : List (Text × Text)
  pf : List (Text × Text)

/-- `store.bind`. rdflib; nothing in /repo. -/
def Binds.store (b : Binds) (p i : Text) : Binds := ⟨put p i b.ns, put i p b.pf⟩

/-- `store.namespace(prefix)`; an empty IRI counts as none. rdflib; nothing in /repo. -/
def Binds.at (b : Binds) (p : Text) : Option Text := (look b.ns p).filter (fun i => !i.isEmpty)

/-- The loop over `prefix1`, `prefix2`, ... that looks for a free one or one that is bound to the IRI already. `fuel` bounds the loop; `numbered_fuel` shows that it never runs out.
rdflib; nothing in /repo. -/
def Binds.numbered (b : Binds) (p i : Text) : Nat → Nat → Binds
  | 0, _ => b
  | fuel + 1, n =>
    match b.at (p ++ dec n) with
    | none => b.store (p ++ dec n) i
    | some j => if j = i then b else b.numbered p i fuel (n + 1)

/-- The prefix that is numbered. rdflib; nothing in /repo. -/
def numberedPrefix (p : Text) : Text := if p.isEmpty then "default".toList else p

/-- The prefix is free or belongs to the IRI. rdflib; nothing in /repo. -/
def Binds.plain (b : Binds) (p i : Text) (override : Bool) : Binds :=
  match look b.pf i with
  | none => b.store p i
  | some q => if q = p then b else if override || q.head? = some '_' then b.store p i else b

/-- `graph.bind(prefix, iri, override)`, called at par:279, reg:272, reg:281, yml_parser.py 46, 102. rdflib. -/
def Binds.bind (b : Binds) (p i : Text) (override : Bool := true) : Binds :=
  match b.at p with
  | some j => if j = i then b.plain p i override else b.numbered (numberedPrefix p) i (b.ns.length + 1) 1
  | none => b.plain p i override

/-- The namespaces of a new graph. rdflib; nothing in /repo. -/
def Binds.new : Binds :=
  (((Binds.mk [] []).bind "xml".toList "http://www.w3.org/XML/1998/namespace".toList).bind "rdf".toList "http://www.w3.org/1999/02/22-rdf-syntax-ns#".toList).bind
    "rdfs".toList "http://www.w3.org/2000/01/rdf-schema#".toList |>.bind "xsd".toList "http://www.w3.org/2001/XMLSchema#".toList

/-! ### RDF packages -/

/-- Terms: IRIs, the literal true, and any other (literals, blank nodes). rdflib; nothing in /repo. -/
inductive Term where
  | iri (t : Text)
  | yes
  | other (n : Nat)
  deriving DecidableEq

/-- rdflib; nothing in /repo. -/
structure Triple where
  s : Term
  p : Text
  o : Term
  deriving DecidableEq

/-- The graph. rdflib; nothing in /repo. -/
structure Gr where
  triples : List Triple
  binds : Binds

/-- `graph.add`: a graph is a set. rdflib; nothing in /repo. -/
def Gr.add (g : Gr) (t : Triple) : Gr := if t ∈ g.triples then g else { g with triples := g.triples ++ [t] }

/-- rdf:type. rdflib; nothing in /repo. -/
def rdfType : Text := "http://www.w3.org/1999/02/22-rdf-syntax-ns#type".toList
/-- owl:ObjectProperty. rdflib; nothing in /repo. -/
def objectProperty : Text := "http://www.w3.org/2002/07/owl#ObjectProperty".toList
/-- rdfs:subPropertyOf. rdflib; nothing in /repo. -/
def subPropertyOf : Text := "http://www.w3.org/2000/01/rdf-schema#subPropertyOf".toList
/-- `rdflib_cuba.activeRelationship`, cuba.py 8-9. -/
def activeRelationship : Text := "http://www.osp-core.com/cuba#activeRelationship".toList
/-- `rdflib_cuba._default_rel`, cuba.py 8-9, 16-30. -/
def defaultRel : Text := "http://www.osp-core.com/cuba#_default_rel".toList
/-- `rdflib_cuba._reference_by_label`, cuba.py 8-9, 16-30. -/
def referenceByLabel : Text := "http://www.osp-core.com/cuba#_reference_by_label".toList

/-- `ALL_KEYS`, par:23-26, without the file handler. -/
def allKeys : List Text := ["ontology_file".toList, "namespaces".toList, "active_relationships".toList, "default_relationship".toList, "identifier".toList, "format".toList,
  "reference_by_label".toList]

/-- A key of the package file is known, par:23-26, 246-249. A key that is no text, or `file` or `self`, is a TypeError of the call `_parse_rdf(**doc, file=f)` at par:58-59 already. -/
def knownKey : Yaml → Bool
  | .str t => allKeys.any (· == t)
  | _ => false

/-- `iri += "#"`, par:271-274. -/
def withHash (i : Text) : Text := if endsWith i ['#'] || endsWith i ['/'] then i else i ++ ['#']

/-- The loop over the namespaces, par:270-282: bind each name and collect the IRIs. An IRI that is no text has no `endswith`.
Simplification: a name that is no text is refused here with AttributeError; in the code it is bound and `update_namespaces` fails later with AttributeError. -/
def bindAll (b : Binds) : Entries → Binds × Except PyErr (List Text)
  | [] => (b, .ok [])
  | (.str p, .str i) :: l =>
    match bindAll (b.bind p (withHash i)) l with
    | (b', .ok is) => (b', .ok (withHash i :: is))
    | (b', .error e) => (b', .error e)
  | _ :: _ => (b, .error .attributeError)

/-- `for x in active_rels`, par:316: lists give their entries, texts their characters, dictionaries their keys. -/
def iterate : Yaml → Option (List Yaml)
  | .list l => some l
  | .str t => some (t.map (fun c => .str [c]))
  | .dict l => some (l.map (·.1))
  | _ => none

/-- `_add_cuba_triples`, par:310-327. `URIRef` of something that is no text is a TypeError (simplification: also of lists). -/
def addActive (g : Gr) : List Yaml → Gr × Option PyErr
  | [] => (g, none)
  | .str r :: l =>
    if ⟨.iri r, rdfType, .iri objectProperty⟩ ∈ g.triples then addActive (g.add ⟨.iri r, subPropertyOf, .iri activeRelationship⟩) l
    else (g, some .valueError)
  | _ :: _ => (g, some .typeError)

/-- `_add_default_rel_triples`, par:290-308, for the collected IRIs. -/
def addDefault (g : Gr) (iris : List Text) : Option Yaml → Gr × Option PyErr
  | none => (g, none)
  | some .null => (g, none)
  | some (.str d) => (iris.foldl (fun g i => g.add ⟨.iri i, defaultRel, .iri d⟩) g, none)
  | some _ => (g, if iris = [] then none else some .typeError)

/-- `_add_reference_style_triples`, par:329-343. -/
def addStyle (g : Gr) (iris : List Text) (byLabel : Bool) : Gr :=
  if byLabel then iris.foldl (fun g i => g.add ⟨.iri i, referenceByLabel, .yes⟩) g else g

/-- `_parse_rdf`, par:228-288, with the check of par:215-218; `file` is the content of the RDF file in the given format, if it can be read. `_check_namespaces` (par:345-354) only writes
warnings. Simplification: the identifier is a text. -/
def parseRdf (g : Gr) (doc : Entries) (identifier : Text) (file : Option (List Triple)) : Gr × Option PyErr :=
  if '.' ∈ identifier then (g, some .valueError)
  else
    match get doc "namespaces".toList with
    | none => (g, some .typeError)
    | some nss =>
      if doc.any (fun e => !knownKey e.1) then (g, some .typeError)
      else
        match file with
        | none => (g, some .exception)
        | some ts =>
          let g1 := ts.foldl Gr.add g
          match nss with
          | .dict l =>
            let (b, r) := bindAll g1.binds l
            let g2 := { g1 with binds := b }
            match r with
            | .error e => (g2, some e)
            | .ok iris =>
              match iterate ((get doc "active_relationships".toList).getD (.list [])) with
              | none => (g2, some .typeError)
              | some rels =>
                match addActive g2 rels with
                | (g3, some e) => (g3, some e)
                | (g3, none) =>
                  match addDefault g3 iris (get doc "default_relationship".toList) with
                  | (g4, some e) => (g4, some e)
                  | (g4, none) => (addStyle g4 iris (((get doc "reference_by_label".toList).map Ymlp.truth).getD false), none)
          | _ => (g1, some .attributeError)

/-! ### the table of namespaces in a file -/

/-- A line of `namespaces.txt`, reg:246-248. -/
def line (e : Text × Text) : Text := e.1 ++ '\t' :: e.2 ++ ['\n']

/-- `namespaces.txt`, reg:245-248: every line. -/
def writeNamespaces (b : Binds) : Text := b.ns.flatMap line

/-- Reading a text file: `\r\n` and `\r` become `\n`. Python itself; models nothing in /repo. -/
def universal : Text → Text
  | [] => []
  | '\r' :: '\n' :: t => '\n' :: universal t
  | c :: t => (if c = '\r' then '\n' else c) :: universal t

/-- `for line in f`, each without its `\n` (reg:271 strips it): a last line without text is none. Python itself; models nothing in /repo. -/
def linesOf (t : Text) : List Text :=
  let ls := splitOn '\n' (universal t)
  if ls.getLast? = some [] then ls.dropLast else ls

/-- `name, iri = line.split("\t")`, reg:271. -/
def readLine (l : Text) : Except PyErr (Text × Text) :=
  match splitOn '\t' l with
  | [n, i] => .ok (n, i)
  | _ => .error .valueError

/-- The loop of `load`, reg:269-272. -/
def bindLines (b : Binds) : List Text → Binds × Option PyErr
  | [] => (b, none)
  | l :: ls =>
    match readLine l with
    | .error e => (b, some e)
    | .ok (n, i) => bindLines (b.bind n i) ls

/-- `load` of the table of namespaces, reg:266-272, into a graph with the namespaces `b`. -/
def loadNamespaces (b : Binds) (file : Text) : Binds × Option PyErr := bindLines b (linesOf file)

end Osp.Rdfp
