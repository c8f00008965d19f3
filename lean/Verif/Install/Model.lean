import Verif.Names.Model
/-!
# Model of the installation of ontology packages (C34, C35)

`osp/core/ontology/installation.py` (cited as ins:), `parser.py` (par:), `yml/yml_parser.py` (yml:), `namespace_registry.py` (reg:).

The file system is a map from path texts to files; the installation directory is a list of named files in the order in which `os.listdir` gives them, which the theorems leave arbitrary.
YAML documents are seen through the keys these functions use; the rest of the document is an arbitrary `B`. What parsing an ontology does to the graph is an arbitrary function (`Env.yml`,
`Env.rdf`), which may fail after having changed the graph. Writing a YAML document or an RDF file and reading it again gives the same document (PyYAML and rdflib are trusted);
an RDF file can only be read in the format it was written in. Identifiers are ASCII texts.
-/
namespace Osp.Install
open Osp.Names (lower)

/-- The value of the key `requirements`: absent, a list of texts, or something else. parser.py 146-171. -/
inductive Reqs where
  | absent
  | list (names : List Text)
  | other
  deriving DecidableEq

/-- The YAML document of a package. `owl` tells `ontology_file`/`identifier` documents from YAML ontologies with `ontology`/`namespace` (yml:47-57, par:56-61). -/
structure Doc (B : Type) where
  owl : Bool
  /-- value of `namespace`, respectively of `identifier` -/
  name : Text
  reqs : Reqs
  /-- value of `ontology_file` -/
  file : Text
  /-- value of `format`, par:244 -/
  format : Option Text
  /-- all other keys -/
  body : B
  deriving DecidableEq

/-- Files: package documents, empty documents, YAML documents that are no package, RDF files in some format, the saved table of namespaces, anything else. What parser.py 43-66, 90-171 and namespace_registry.py 241-275 distinguish. Modelling simplification: no other structure. -/
inductive File (B R : Type) where
  | pkg (d : Doc B)
  | empty
  | noPkg
  | rdf (format : Text) (content : R)
  | names (content : R)
  | other
  deriving DecidableEq

/-- What is fixed: the installation directory, the directory of the ontologies that come with osp-core, the graph of CUBA, the parsers, the RDF/XML writer and reader,
and the order in which sets are enumerated. Modelling device; the functions called at parser.py 201-286, namespace_registry.py 241-289, installation.py 15-30. -/
structure Env (G B R : Type) where
  path : Text
  docs : Text
  cuba : G
  yml : G → Doc B → G × Option PyErr
  rdf : G → Doc B → R → G × Option PyErr
  dump : G → R
  load : R → G
  enumF : List Text → List Text
  enumP : List (Text × Text) → List (Text × Text)

/-- The state: the files in the installation directory, those outside, and the registry: its graph and the graph from which its table of namespaces was last computed (reg:106-117). -/
structure World (G B R : Type) where
  dir : List (Text × File B R)
  ext : Text → Option (File B R)
  graph : G
  names : G

variable {G B R : Type}

/-- `os.path.join(directory, name)` for a directory without trailing slash. Python itself; models nothing in /repo. -/
def join (d name : Text) : Text := if name.head? = some '/' ∨ d = [] then name else d ++ '/' :: name

/-- `os.path.dirname` (repeated slashes are not collapsed). Python itself; models nothing in /repo. -/
def dirname (t : Text) : Text := joinWith ['/'] (splitOn '/' t).dropLast

/-- parser.py 90-199, `".yml"`. -/
def dotYml : Text := ['.', 'y', 'm', 'l']
/-- parser.py 275-286, `".xml"`. -/
def dotXml : Text := ['.', 'x', 'm', 'l']
/-- parser.py 275-286, the format written. -/
def xml : Text := ['x', 'm', 'l']
/-- namespace_registry.py 241-275. -/
def graphXml : Text := ['g', 'r', 'a', 'p', 'h', '.', 'x', 'm', 'l']
/-- namespace_registry.py 241-275. -/
def namespacesTxt : Text := ['n', 'a', 'm', 'e', 's', 'p', 'a', 'c', 'e', 's', '.', 't', 'x', 't']

/-- Python's `dict[key] = value`: the position of an existing key is kept. Python itself; models nothing in /repo. -/
def put {α : Type} (key : Text) (v : α) : List (Text × α) → List (Text × α)
  | [] => [(key, v)]
  | e :: l => if e.1 = key then (key, v) :: l else e :: put key v l

/-- `dict.get(key)`. Python itself; models nothing in /repo. -/
def look {α : Type} (l : List (Text × α)) (key : Text) : Option α := (l.find? (fun e => e.1 = key)).map (·.2)

/-- The file at a path. The operating system: a file that exists can be read. Modelling device. -/
def World.read (E : Env G B R) (w : World G B R) (t : Text) : Option (File B R) :=
  match w.dir.find? (fun e => join E.path e.1 = t) with
  | some e => some e.2
  | none => w.ext t

/-- `get_file_path`, par:176-203. -/
def filePath (E : Env G B R) (w : World G B R) (t : Text) : Text :=
  if endsWith t dotYml then t
  else
    let a := join E.docs (lower t ++ ".ontology.yml".toList)
    if (w.read E a).isSome then a else join E.docs (lower t ++ dotYml)

/-- `yaml.safe_load` of a file given to `get_identifier` and the checks there, par:100-117 (the same order of errors in par:46-65). -/
def readDoc (E : Env G B R) (w : World G B R) (t : Text) : Except PyErr (Doc B) :=
  match w.read E (filePath E w t) with
  | some (.pkg d) => .ok d
  | some .empty => .error .syntaxError
  | some .noPkg => .error .syntaxError
  | some _ => .error .exception
  | none => .error .fileNotFoundError

/-- `get_identifier` of a document, par:112-115, yml:60-69. -/
def Doc.ident (d : Doc B) : Text := lower d.name

/-- `get_identifier` of a path, par:86-117. -/
def getIdentifier (E : Env G B R) (w : World G B R) (t : Text) : Except PyErr Text :=
  match readDoc E w t with
  | .ok d => .ok d.ident
  | .error e => .error e

/-- `get_requirements`, par:147-174. -/
def Doc.requirements (d : Doc B) : Except PyErr (List Text) :=
  match d.reqs with
  | .absent => .ok []
  | .list l => .ok l
  | .other => .error .valueError

/-- `get_installed_packages(return_path=True)` before the set is made, ins:55-60. -/
def World.packages (E : Env G B R) (w : World G B R) : List (Text × Text) :=
  (w.dir.filter (fun e => endsWith e.1 dotYml)).map (fun e => ((splitOn '.' e.1).headD [], join E.path e.1))

/-- `get_installed_packages()`, ins:42-61. -/
def World.installed (E : Env G B R) (w : World G B R) : List Text := (w.packages E).map (·.1)

/-- `dict(pairs)`. Python itself; models nothing in /repo. -/
def toDict {α : Type} (l : List (Text × α)) : List (Text × α) := l.foldl (fun d e => put e.1 e.2 d) []

/-- Which package an argument of `uninstall` means, ins:81-90. -/
def meant (E : Env G B R) (w : World G B R) (arg : Text) : Except PyErr Text :=
  if endsWith arg dotYml && (w.read E arg).isSome then getIdentifier E w arg else .ok arg

/-- The loop of `_get_remaining_packages`, ins:81-91. -/
def toRemove (E : Env G B R) (w : World G B R) (inst : List (Text × Text)) : List Text → Except PyErr (List Text)
  | [] => .ok []
  | a :: l =>
    match meant E w a with
    | .error e => .error e
    | .ok x => if (look inst x).isSome then
        match toRemove E w inst l with
        | .ok r => .ok (x :: r)
        | .error e => .error e
      else .error .valueError

/-- `_get_remaining_packages`, ins:63-92. -/
def remaining (E : Env G B R) (w : World G B R) (args : List Text) : Except PyErr (List Text) :=
  let inst := toDict (E.enumP (w.packages E))
  match toRemove E w inst args with
  | .ok r => .ok ((inst.filter (fun e => e.1 ∉ r)).map (·.2))
  | .error e => .error e

/-- The loop of `_get_replaced_packages`, ins:107-108. -/
def replaceLoop (E : Env G B R) (w : World G B R) : List Text → List (Text × Text) → Except PyErr (List (Text × Text))
  | [], d => .ok d
  | f :: l, d =>
    match getIdentifier E w f with
    | .ok i => replaceLoop E w l (put i f d)
    | .error e => .error e

/-- `_get_replaced_packages`, ins:94-109. -/
def replaced (E : Env G B R) (w : World G B R) (files : List Text) : Except PyErr (List Text) :=
  match replaceLoop E w files (toDict (E.enumP (w.packages E))) with
  | .ok d => .ok (d.map (·.2))
  | .error e => .error e

/-- The loop of `_get_new_packages`, ins:122-128: `result.remove` raises KeyError if the element is not there. -/
def newLoop (E : Env G B R) (w : World G B R) : List Text → List Text → Except PyErr (List Text)
  | [], res => .ok res
  | f :: l, res =>
    match getIdentifier E w f with
    | .error e => .error e
    | .ok i => if i ∈ w.installed E then
        if f ∈ res then newLoop E w l (res.filter (· ≠ f)) else .error .keyError
      else newLoop E w l res

/-- `_get_new_packages`, ins:111-129. -/
def newPackages (E : Env G B R) (w : World G B R) (files : List Text) : Except PyErr (List Text) :=
  newLoop E w files (E.enumF files)

/-- The dictionary from identifiers to files, ins:172. -/
def identDict (E : Env G B R) (w : World G B R) : List Text → List (Text × Text) → Except PyErr (List (Text × Text))
  | [], d => .ok d
  | f :: l, d =>
    match getIdentifier E w f with
    | .ok i => identDict E w l (put i f d)
    | .error e => .error e

/-- The dictionary of requirements, ins:173-174. -/
def reqDict (E : Env G B R) (w : World G B R) : List (Text × Text) → Except PyErr (List (Text × List Text))
  | [] => .ok []
  | (n, f) :: l =>
    match readDoc E w f with
    | .error e => .error e
    | .ok d =>
      match d.requirements with
      | .error e => .error e
      | .ok r =>
        match reqDict E w l with
        | .ok rest => .ok ((n, r) :: rest)
        | .error e => .error e

/-- The loop that orders the packages, ins:177-192. The first argument bounds the number of rounds; it is never exhausted (`rounds_fuel`). -/
def rounds : Nat → List Text → List Text → List (Text × List Text) → Except PyErr (List Text)
  | _, _, res, [] => .ok res
  | 0, _, _, _ => .error .exception
  | n + 1, inst, res, reqs =>
    let reqs' := reqs.map (fun e => (e.1, e.2.filter (fun r => r ∉ inst ∧ r ∉ res)))
    let add := (reqs'.filter (fun e => e.2 = [])).map (·.1)
    if add = [] then .error .runtimeError
    else rounds n inst (res ++ add) (reqs'.filter (fun e => e.1 ∉ add))

/-- `_sort_for_installation`, ins:159-195. -/
def sortFor (E : Env G B R) (w : World G B R) (files inst : List Text) : Except PyErr (List Text) :=
  match identDict E w files [] with
  | .error e => .error e
  | .ok d =>
    match reqDict E w d with
    | .error e => .error e
    | .ok reqs =>
      match rounds reqs.length inst [] reqs with
      | .ok order => .ok (order.filterMap (look d))
      | .error e => .error e

/-- The parser: its graph, the documents read, and the graphs of the RDF packages, par:32-41. -/
structure Parser (G B R : Type) where
  graph : G
  docs : List (Doc B)
  graphs : List (Text × R)

/-- The RDF file of a package, par:218-233. -/
def rdfPath (file : Text) (d : Doc B) : Text :=
  if "http://".toList.isPrefixOf d.file || "https://".toList.isPrefixOf d.file then d.file else join (dirname file) d.file

/-- `Parser.parse`, par:43-66, 205-281. -/
def parse (E : Env G B R) (w : World G B R) (P : Parser G B R) (t : Text) : Parser G B R × Option PyErr :=
  match readDoc E w t with
  | .error e => (P, some e)
  | .ok d =>
    if d.owl then
      if '.' ∈ d.name then (P, some .valueError)
      else if d.reqs ≠ .absent then (P, some .typeError)
      else match w.read E (rdfPath (filePath E w t) d) with
        | none => (P, some .fileNotFoundError)
        | some (.rdf f c) =>
          if f = d.format.getD xml then
            match E.rdf P.graph d c with
            | (g, some e) => ({ P with graph := g }, some e)
            | (g, none) => ({ graph := g, docs := P.docs ++ [d], graphs := put d.name c P.graphs }, none)
          else (P, some .exception)
        | some _ => (P, some .exception)
    else
      match E.yml P.graph d with
      | (g, some e) => ({ P with graph := g }, some e)
      | (g, none) => ({ P with graph := g, docs := P.docs ++ [d] }, none)

/-- The loop over the files, ins:147-148. -/
def parseAll (E : Env G B R) (w : World G B R) : Parser G B R → List Text → Parser G B R × Option PyErr
  | P, [] => (P, none)
  | P, t :: l =>
    match parse E w P t with
    | (P', none) => parseAll E w P' l
    | (P', some e) => (P', some e)

/-- `Parser.store` of one document, par:74-86. The directory has no subdirectories, so that a name with a slash cannot be opened for writing. -/
def storeDoc (graphs : List (Text × R)) (dir : List (Text × File B R)) (d : Doc B) : List (Text × File B R) × Option PyErr :=
  let i := d.ident
  if d.owl then
    match look graphs i with
    | none => (dir, some .keyError)
    | some c =>
      if '/' ∈ i then (dir, some .fileNotFoundError)
      else (put (i ++ dotYml) (.pkg { d with file := i ++ dotXml }) (put (i ++ dotXml) (.rdf xml c) dir), none)
  else if '/' ∈ i then (dir, some .fileNotFoundError)
  else (put (i ++ dotYml) (.pkg d) dir, none)

/-- `Parser.store`, par:68-86. -/
def storeDocs (graphs : List (Text × R)) : List (Text × File B R) → List (Doc B) → List (Text × File B R) × Option PyErr
  | dir, [] => (dir, none)
  | dir, d :: l =>
    match storeDoc graphs dir d with
    | (dir', none) => storeDocs graphs dir' l
    | (dir', some e) => (dir', some e)

/-- `NamespaceRegistry.store`, reg:236-248. -/
def storeReg (E : Env G B R) (g : G) (dir : List (Text × File B R)) : List (Text × File B R) :=
  put namespacesTxt (.names (E.dump g)) (put graphXml (.rdf xml (E.dump g)) dir)

/-- `_install`, ins:131-157: `filter` is the filter function, applied in the world after `clear`. -/
def install' (E : Env G B R) (filter : World G B R → List Text → Except PyErr (List Text)) (clear : Bool) (w : World G B R) (files : List Text) : World G B R × Option PyErr :=
  let inst := if clear then [] else w.installed E
  let w1 := if clear then { w with graph := E.cuba, names := E.cuba } else w
  match filter w1 files with
  | .error e => (w1, some e)
  | .ok fs =>
    match sortFor E w1 fs inst with
    | .error e => (w1, some e)
    | .ok order =>
      match parseAll E w1 { graph := w1.graph, docs := [], graphs := [] } order with
      | (P, some e) => ({ w1 with graph := P.graph }, some e)
      | (P, none) =>
        match storeDocs P.graphs (if clear then [] else w1.dir) P.docs with
        | (dir, some e) => ({ w1 with dir := dir, graph := P.graph, names := P.graph }, some e)
        | (dir, none) => ({ w1 with dir := storeReg E P.graph dir, graph := P.graph, names := P.graph }, none)

/-- `install`, ins:28-31. -/
def install (E : Env G B R) : World G B R → List Text → World G B R × Option PyErr := install' E (newPackages E) false

/-- `uninstall`, ins:33-36. -/
def uninstall (E : Env G B R) : World G B R → List Text → World G B R × Option PyErr := install' E (remaining E) true

/-- `install_overwrite`, ins:38-41. -/
def overwrite (E : Env G B R) : World G B R → List Text → World G B R × Option PyErr := install' E (replaced E) true

/-- `NamespaceRegistry.load` into a new registry when the directory holds no old installation, reg:250-275; `empty` is the graph of a new registry. -/
def restart (E : Env G B R) (empty : G) (w : World G B R) : World G B R :=
  match look w.dir graphXml with
  | some (.rdf _ c) => { w with graph := E.load c, names := if (look w.dir namespacesTxt).isSome then E.load c else empty }
  | some _ => w
  | none => { w with graph := E.cuba, names := E.cuba }

end Osp.Install
