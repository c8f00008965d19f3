import Verif.Cuds.Model
/-!
# Model of the graph traversals
`Registry.get_subtree`, `Registry._get_not_reachable`, `Session.prune` (session/registry.py, session/session.py), `find_cuds_object`
(utils/simple_search.py) and `delete_cuds_object_recursively` (utils/general.py).

The children `root.iter(rel=rel)` are an abstract function `succ : Uid → List Uid`, instantiated with the session model by `children`.
Recursive Python functions get a fuel argument (the recursion depth); `none` means that the fuel did not suffice. The theorems show that a fuel
bounded by the number of objects always suffices. Python's own recursion limit (RecursionError) is not modelled.
-/
namespace Osp.Search
open Osp.Cuds

/-- The loop over the children in `get_subtree`, registry.py:80-84; `rec child skip` is the recursive call. -/
def subtreeLoop (rec : Uid → List Uid → Option (List Uid)) (skip : List Uid) : List Uid → List Uid → Option (List Uid)
  | [], subtree => some subtree
  | c :: cs, subtree =>
    if c ∈ skip ∨ c ∈ subtree then subtreeLoop rec skip cs subtree
    else match rec c (skip ++ subtree) with
      | none => none
      | some t => subtreeLoop rec skip cs (subtree ++ t)

/-- `Registry.get_subtree`, registry.py:59-85 (sets as lists). -/
def getSubtree (succ : Uid → List Uid) : Nat → Uid → List Uid → Option (List Uid)
  | 0, _, _ => none
  | fuel + 1, root, skip => subtreeLoop (getSubtree succ fuel) skip (succ root) [root]

/-- The loop over the roots in `_get_not_reachable`, registry.py:118-120. -/
def reachableLoop (succ : Uid → List Uid) (fuel : Nat) : List Uid → List Uid → Option (List Uid)
  | [], acc => some acc
  | r :: rs, acc => match getSubtree succ fuel r acc with
    | none => none
    | some t => reachableLoop succ fuel rs (acc ++ t)

/-- `Registry._get_not_reachable`, registry.py:104-129. -/
def getNotReachable (succ : Uid → List Uid) (fuel : Nat) (reg : List Uid) (roots : List Uid) : Option (List Uid) :=
  (reachableLoop succ fuel roots []).map fun reachable => reg.filter (· ∉ reachable)

/-- The loop over the children in `find_cuds_object` with `find_all=True`, simple_search.py:37-47. -/
def findLoop (rec : Uid → List Uid → Option (List Uid × List Uid)) :
    List Uid → List Uid → List Uid → Option (List Uid × List Uid)
  | [], visited, out => some (out, visited)
  | c :: cs, visited, out =>
    if c ∈ visited then findLoop rec cs visited out
    else match rec c visited with
      | none => none
      | some (res, visited') => findLoop rec cs visited' (out ++ res)

/-- `find_cuds_object` with `find_all=True`, simple_search.py:28-48. `depthLeft = none` is `max_depth=inf`, `some k` is
`max_depth - current_depth = k`. Returns the output and the (mutated, shared) set `visited`. -/
def findAll (succ : Uid → List Uid) (crit : Uid → Bool) : Nat → Option Nat → Uid → List Uid → Option (List Uid × List Uid)
  | 0, _, _, _ => none
  | fuel + 1, depthLeft, root, visited =>
    let visited := root :: visited
    let out := if crit root then [root] else []
    match depthLeft with
    | none => findLoop (findAll succ crit fuel none) (succ root) visited out
    | some 0 => some (out, visited)
    | some (k + 1) => findLoop (findAll succ crit fuel (some k)) (succ root) visited out

/-- The loop over the children with `find_all=False`, simple_search.py:37-47. -/
def findFirstLoop (rec : Uid → List Uid → Option (Option Uid × List Uid)) :
    List Uid → List Uid → Option (Option Uid × List Uid)
  | [], visited => some (none, visited)
  | c :: cs, visited =>
    if c ∈ visited then findFirstLoop rec cs visited
    else match rec c visited with
      | none => none
      | some (some x, visited') => some (some x, visited')
      | some (none, visited') => findFirstLoop rec cs visited'

/-- `find_cuds_object` with `find_all=False` and no depth limit, simple_search.py:28-48. -/
def findFirst (succ : Uid → List Uid) (crit : Uid → Bool) : Nat → Uid → List Uid → Option (Option Uid × List Uid)
  | 0, _, _ => none
  | fuel + 1, root, visited =>
    let visited := root :: visited
    if crit root then some (some root, visited)
    else findFirstLoop (findFirst succ crit fuel) (succ root) visited

/-- `root.iter(rel=rel)` on a session whose neighbours are all registered (cuds.py:332-375). -/
def children (O : Onto) (s : Sess) (rel : Option Rel) (u : Uid) : List Uid :=
  match get O s u [] rel none with
  | .ok us => us.filterMap id
  | .error _ => []

/-- `Session.prune`, session.py:68-79. With an empty session `root` is None and the registry lookup raises KeyError. `none`: out of fuel. -/
def prune (O : Onto) (s : Sess) (fuel : Nat) (rel : Option Rel) : Option (Out Unit) :=
  match s.root with
  | none => some ⟨.error .keyError, s⟩
  | some root =>
    if root ∉ s.reg then some ⟨.error .keyError, s⟩
    else (getNotReachable (children O s rel) fuel s.reg [root]).map fun del => ⟨.ok (), del.foldl deleteTriples s⟩

/-- `delete_cuds_object_recursively`, general.py:36-56: all deletes, stopping at the first exception. -/
def deleteAll (O : Onto) : List Uid → Sess → Out Unit
  | [], s => ⟨.ok (), s⟩
  | u :: us, s => match delete O s u with
    | ⟨.ok _, s'⟩ => deleteAll O us s'
    | ⟨.error e, s'⟩ => ⟨.error e, s'⟩

/-- `delete_cuds_object_recursively`, general.py:36-56 (`none`: out of fuel). -/
def deleteRecursively (O : Onto) (s : Sess) (fuel : Nat) (rel : Option Rel) (depth : Option Nat) (u : Uid) : Option (Out Unit) :=
  (findAll (children O s rel) (fun _ => true) fuel depth u []).map fun (found, _) => deleteAll O found s

end Osp.Search
