import Verif.Branch.Model
import Verif.Cuds.Spec
/-!
# What a nested expression stands for (specification of C103)
-/
namespace Osp.Branch
open Osp.Cuds

/-- The object an expression stands for: the innermost first argument. Specification; nothing in /repo. -/
def head : Expr → Uid
  | .obj u => u
  | .new u _ _ => u
  | .branch e _ _ => head e

/-- The objects the arguments stand for. Specification; nothing in /repo. -/
def heads : Exprs → List Uid
  | .nil => []
  | .cons e es => head e :: heads es

mutual
/-- The objects of the user that occur. Specification; nothing in /repo. -/
def old : Expr → List Uid
  | .obj u => [u]
  | .new _ _ _ => []
  | .branch e args _ => old e ++ olds args
/-- The same for arguments. Specification; nothing in /repo. -/
def olds : Exprs → List Uid
  | .nil => []
  | .cons e es => old e ++ olds es
end

mutual
/-- The objects that are created: uid, class, attribute values. Specification; nothing in /repo. -/
def fresh : Expr → List (Uid × Cls × List (Attr × Val))
  | .obj _ => []
  | .new u c vals => [(u, c, vals)]
  | .branch e args _ => fresh e ++ freshs args
/-- The same for arguments. Specification; nothing in /repo. -/
def freshs : Exprs → List (Uid × Cls × List (Attr × Val))
  | .nil => []
  | .cons e es => fresh e ++ freshs es
end

mutual
/-- The links that are asked for, inner calls first. Specification; nothing in /repo. -/
def links (d : Uid → Option Rel) : Expr → List (Uid × Rel × Uid)
  | .obj _ => []
  | .new _ _ _ => []
  | .branch e args rel => links d e ++ linkss d args ++ match rel.or (d (head e)) with
    | none => []
    | some r => (heads args).map fun x => (head e, r, x)
/-- The same for arguments. Specification; nothing in /repo. -/
def linkss (d : Uid → Option Rel) : Exprs → List (Uid × Rel × Uid)
  | .nil => []
  | .cons e es => links d e ++ linkss d es
end

mutual
/-- Every call has a relationship, its own or the default one. Specification; nothing in /repo. -/
def Related (d : Uid → Option Rel) : Expr → Prop
  | .obj _ => True
  | .new _ _ _ => True
  | .branch e args rel => Related d e ∧ Relateds d args ∧ rel.or (d (head e)) ≠ none
/-- The same for arguments. Specification; nothing in /repo. -/
def Relateds (d : Uid → Option Rel) : Exprs → Prop
  | .nil => True
  | .cons e es => Related d e ∧ Relateds d es
end

/-- An expression with these old and new objects makes sense in the session: the objects of the user belong to it, the new ones have new uids (as `uuid4` provides) and one value for each of some attributes of their class. Specification; nothing in /repo. -/
structure Fits (O : Onto) (A : Abs) (os : List Uid) (ns : List (Uid × Cls × List (Attr × Val))) : Prop where
  old : ∀ u ∈ os, A.cls u ≠ none
  uids : (ns.map (·.1)).Nodup
  fresh : ∀ n ∈ ns, n.1 ≠ 0 ∧ A.cls n.1 = none ∧ (n.2.2.map (·.1)).Nodup ∧ ∀ av ∈ n.2.2, av.1 ∈ O.attrs n.2.1

/-- The link in the opposite direction. Specification; nothing in /repo. -/
def flip (O : Onto) (l : Uid × Rel × Uid) : Uid × Rel × Uid := (l.2.2, O.inv l.2.1, l.1)

/-- No link is asked for that is there already, or that was asked for (in one direction or the other) before. Specification; nothing in /repo. -/
def NoneTwice (O : Onto) (A : Abs) (ls : List (Uid × Rel × Uid)) : Prop :=
  (∀ l ∈ ls, ¬ A.link l.1 l.2.1 l.2.2) ∧ ls.Pairwise (fun l m => m ≠ l ∧ m ≠ flip O l)

/-- The view of the user when new objects were created and links made. Specification; nothing in /repo. -/
structure Built (O : Onto) (A : Abs) (ns : List (Uid × Cls × List (Attr × Val))) (ls : List (Uid × Rel × Uid)) (A' : Abs) : Prop where
  new : ∀ n ∈ ns, A'.cls n.1 = some n.2.1 ∧ ∀ a, A'.attr n.1 a = n.2.2.lookup a
  rest : ∀ u, u ∉ ns.map (·.1) → A'.cls u = A.cls u ∧ ∀ a, A'.attr u a = A.attr u a
  link : ∀ a q b, A'.link a q b ↔ A.link a q b ∨ (a, q, b) ∈ ls ∨ ∃ l ∈ ls, (a, q, b) = flip O l

/-- Each of these old and new objects occurs once. Specification; nothing in /repo. -/
def Once (os : List Uid) (ns : List (Uid × Cls × List (Attr × Val))) : Prop := (os ++ ns.map (·.1)).Nodup

end Osp.Branch
