import Verif.Tables.Model
/-!
# Specification: a set of triples
-/
namespace Osp.Tables
variable {D V : Type}

/-- A pattern matches a triple: every given position is equal. -/
def Pat.matches [DecidableEq D] [DecidableEq V] (pat : Pat D V) (t : Triple D V) : Bool :=
  (match pat.s with | none => true | some s => decide (t.s = s)) &&
  (match pat.p with | none => true | some p => decide (t.p = p)) &&
  (match pat.o with | none => true | some o => decide (t.o = o))

/-- What an operation does to the set of stored triples. -/
def specStep [DecidableEq D] [DecidableEq V] (S : List (Triple D V)) : Op D V → List (Triple D V)
  | .add t => t :: S
  | .remove pat => S.filter (fun t => !pat.matches t)
  | .query _ => S
  | .reopen _ => S
  | .clear _ => []

def specRun [DecidableEq D] [DecidableEq V] (S : List (Triple D V)) (ops : List (Op D V)) : List (Triple D V) := ops.foldl specStep S

/-- The datatypes that have a table, after an operation. -/
def dtsStep [DecidableEq D] (dts : List D) : Op D V → List D
  | .reopen new => dts ++ new.filter (fun d => d ∉ dts)
  | .clear new => dts ++ new.filter (fun d => d ∉ dts)
  | _ => dts

def dtsRun [DecidableEq D] (dts : List D) (ops : List (Op D V)) : List D := ops.foldl dtsStep dts

/-- The namespace of an IRI is a prefix of it. -/
def Onto.WF (O : Onto D) : Prop := ∀ i, O.nsOf i <+: i

/-- The triples of CUDS objects: types have the predicate `rdf:type`, the other predicates are relationships between objects, or attributes with a literal of their
datatype, which has a table. -/
def Triple.Ok (O : Onto D) (dts : List D) (t : Triple D V) : Prop :=
  match t.o with
  | .ent _ => t.p = O.rdfType
  | .cuds _ => t.p ≠ O.rdfType ∧ O.kind t.p = some .rel
  | .lit dt _ => t.p ≠ O.rdfType ∧ ∃ k, O.kind t.p = some (.attr k) ∧ dt = some (k.getD O.xsdString) ∧ k.getD O.xsdString ∈ dts

/-- The patterns in scope: an IRI that is no CUDS IRI is asked for with `rdf:type` or without predicate, literals have a datatype, predicates are in the ontology, data
tables exist. -/
def Pat.Ok (O : Onto D) (dts : List D) (pat : Pat D V) : Prop :=
  match pat.o with
  | some (.cuds _) => True
  | some (.ent _) => pat.p = none ∨ pat.p = some O.rdfType
  | some (.lit none _) => False
  | some (.lit (some d) _) => d ∈ dts
  | none => match pat.p with
    | none => True
    | some p => p = O.rdfType ∨ O.kind p = some .rel ∨ ∃ k, O.kind p = some (.attr k) ∧ k.getD O.xsdString ∈ dts

def Op.Ok (O : Onto D) (dts : List D) : Op D V → Prop
  | .add t => t.Ok O dts
  | .remove pat => pat.Ok O dts
  | .query pat => pat.Ok O dts
  | .reopen _ => True
  | .clear _ => True

def AllOk [DecidableEq D] (O : Onto D) : List D → List (Op D V) → Prop
  | _, [] => True
  | dts, op :: ops => op.Ok O dts ∧ AllOk O (dtsStep dts op) ops

end Osp.Tables
