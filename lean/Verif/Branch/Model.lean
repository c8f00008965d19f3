import Verif.Cuds.Model
/-!
# Building structures with nested calls of `branch`

`osp/core/utils/general.py` 15-33 on the model of the CUDS API on one session (`Verif/Cuds`).
-/
namespace Osp.Branch
open Osp.Cuds

mutual
/-- A Python expression that builds a structure: an object at hand, a new object, or a call of `branch`. Modelling device for uses of general.py:15-33. -/
inductive Expr where
  /-- an object the user has -/
  | obj (u : Uid)
  /-- a call of an ontology class, oclass.py:148-195 -/
  | new (u : Uid) (c : Cls) (vals : List (Attr × Val))
  /-- `branch(e, *args, rel=rel)` -/
  | branch (e : Expr) (args : Exprs) (rel : Option Rel)
/-- The arguments of a call. Modelling device for uses of general.py:15-33. -/
inductive Exprs where
  | nil
  | cons (e : Expr) (es : Exprs)
end

/-- `branch(cuds_object, *args, rel=rel)`, general.py:15-33: `cuds_object.add(*args, rel=rel)`, then `cuds_object`. The default relationship of the namespace of the class (cuds.py:183) is a parameter. -/
def branchCall (O : Onto) (d : Uid → Option Rel) (s : Sess) (u : Uid) (xs : List Uid) (rel : Option Rel) : Out Uid :=
  match add O s u xs rel (d u) with
  | ⟨.error e, s'⟩ => ⟨.error e, s'⟩
  | ⟨.ok _, s'⟩ => ⟨.ok u, s'⟩

mutual
/-- The value of an expression, arguments from left to right, exceptions at once. Python itself, on general.py:15-33. -/
def eval (O : Onto) (d : Uid → Option Rel) (s : Sess) : Expr → Out Uid
  | .obj u => ⟨.ok u, s⟩
  | .new u c vals =>
    match create s u c vals with
    | ⟨.error e, s'⟩ => ⟨.error e, s'⟩
    | ⟨.ok _, s'⟩ => ⟨.ok u, s'⟩
  | .branch e args rel =>
    match eval O d s e with
    | ⟨.error x, s1⟩ => ⟨.error x, s1⟩
    | ⟨.ok u, s1⟩ =>
      match evals O d s1 args with
      | ⟨.error x, s2⟩ => ⟨.error x, s2⟩
      | ⟨.ok xs, s2⟩ => branchCall O d s2 u xs rel
/-- The values of the arguments of a call. Python itself, on general.py:15-33. -/
def evals (O : Onto) (d : Uid → Option Rel) (s : Sess) : Exprs → Out (List Uid)
  | .nil => ⟨.ok [], s⟩
  | .cons e es =>
    match eval O d s e with
    | ⟨.error x, s1⟩ => ⟨.error x, s1⟩
    | ⟨.ok u, s1⟩ =>
      match evals O d s1 es with
      | ⟨.error x, s2⟩ => ⟨.error x, s2⟩
      | ⟨.ok us, s2⟩ => ⟨.ok (u :: us), s2⟩
end

end Osp.Branch
